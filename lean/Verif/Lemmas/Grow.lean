import Mathlib.Tactic.Positivity
import Mathlib.Tactic.FieldSimp
import Verif.Lemmas.Loop
import Verif.Lemmas.Random
import Verif.Lemmas.Catnap
/-
Growing and pruning one rule.
-/
namespace Witt

/-! ### gain -/

theorem gainExp_pos (p0 n0 p1 n1 : Nat) : 0 < gainExp p0 n0 p1 n1 := by
  unfold gainExp; positivity

/-- Smoothed precision. -/
def smoothedPrecision (p n : Nat) : Rat := ((p : Rat) + 1) / ((p : Rat) + n + 1)

theorem one_lt_gainExp_iff {p0 n0 p1 n1 : Nat} :
    1 < gainExp p0 n0 p1 n1 ↔ 1 ≤ p1 ∧ smoothedPrecision p0 n0 < smoothedPrecision p1 n1 := by
  have h0 : (0 : Rat) < smoothedPrecision p0 n0 := by unfold smoothedPrecision; positivity
  have h1 : (0 : Rat) < smoothedPrecision p1 n1 := by unfold smoothedPrecision; positivity
  have he : gainExp p0 n0 p1 n1 = (smoothedPrecision p1 n1 / smoothedPrecision p0 n0) ^ p1 := rfl
  rw [he]
  by_cases hp : p1 = 0
  · subst hp; simp
  · rw [one_lt_pow_iff_of_nonneg (by positivity) hp, one_lt_div h0]
    constructor
    · intro h; exact ⟨Nat.one_le_iff_ne_zero.mpr hp, h⟩
    · intro h; exact h.2

theorem smoothedPrecision_lt_iff {p0 n0 p1 n1 : Nat} :
    smoothedPrecision p0 n0 < smoothedPrecision p1 n1 ↔ n1 * (p0 + 1) < n0 * (p1 + 1) := by
  unfold smoothedPrecision
  rw [div_lt_div_iff₀ (by positivity) (by positivity)]
  constructor
  · intro h
    have : ((n1 * (p0 + 1) : Nat) : Rat) < ((n0 * (p1 + 1) : Nat) : Rat) := by push_cast; linarith
    exact_mod_cast this
  · intro h
    have : ((n1 * (p0 + 1) : Nat) : Rat) < ((n0 * (p1 + 1) : Nat) : Rat) := by exact_mod_cast h
    push_cast at this; linarith

/-- A refinement (fewer positives, fewer negatives) with positive gain loses a negative. -/
theorem gain_loses_negative {p0 n0 p1 n1 : Nat} (hp : p1 ≤ p0) (h : 1 < gainExp p0 n0 p1 n1) :
    1 ≤ p1 ∧ n1 < n0 := by
  obtain ⟨h1, h2⟩ := one_lt_gainExp_iff.mp h
  refine ⟨h1, ?_⟩
  rw [smoothedPrecision_lt_iff] at h2
  by_contra hc
  have h3 : n0 ≤ n1 := Nat.le_of_not_lt hc
  have : n0 * (p1 + 1) ≤ n1 * (p0 + 1) := Nat.mul_le_mul h3 (by omega)
  omega

/-- Arithmetic without rounding is lawful. -/
instance exact_lawful : @Arith.Lawful Arith.exact := by
  refine @Arith.Lawful.mk Arith.exact gainExp_pos (fun _ _ _ _ => gain_loses_negative) ?_ ?_ ?_ ?_ ?_ ?_ ?_ ?_ ?_
  · intro p n
    show gainExp p n p n = 1
    unfold gainExp
    rw [div_self (by positivity), one_pow]
  · intro b _
    show ((0 : Int) : Rat) / (b : Rat) = 0
    simp
  · intro a b ha hb
    show 0 ≤ (a : Rat) / (b : Rat)
    exact div_nonneg (by exact_mod_cast ha) (by exact_mod_cast hb.le)
  · intro a b hb h
    have h : (1 : Rat) / 2 ≤ (a : Rat) / (b : Rat) := h
    have hb' : (0 : Rat) < b := by exact_mod_cast hb
    rw [div_le_div_iff₀ (by norm_num) hb'] at h
    have : (b : Rat) ≤ ((2 * a : Int) : Rat) := by push_cast; linarith
    exact_mod_cast this
  · intro a ha
    show withinAllowance 1 a = true
    unfold withinAllowance
    rw [if_pos (Rat.num_nonneg.mpr ha), one_pow]
    simp only [decide_eq_true_eq]
    exact one_le_pow₀ (by norm_num)
  · show (1 : Rat) - 0 = 1
    norm_num
  · intro q h0 h1
    show 0 ≤ 1 - q ∧ 1 - q ≤ 1
    constructor <;> linarith
  · intro n q h0 h1
    exact ⟨exact_cut_nonneg h0, exact_cut_le h0 h1⟩
  · intro n
    rw [exact_cut (by norm_num)]
    simp

theorem exact_sharp (m : Nat) : @Arith.SharpUpTo Arith.exact m :=
  fun _ _ _ _ _ _ _ h1 h => one_lt_gainExp_iff.mpr ⟨h1, smoothedPrecision_lt_iff.mpr h⟩

theorem Arith.SharpUpTo.mono [Arith] {m m' : Nat} (h : Arith.SharpUpTo m) (hm : m' ≤ m) : Arith.SharpUpTo m' :=
  fun p0 n0 p1 n1 h0 => h p0 n0 p1 n1 (le_trans h0 hm)

/-- Without rounding, every positive prune size leaves something to prune on. -/
theorem exact_leavesSome {ps : Rat} (h0 : 0 < ps) (h1 : ps ≤ 1) : @Arith.LeavesSome Arith.exact ps := by
  intro n hn
  have e : @Arith.complement Arith.exact ps = 1 - ps := rfl
  rw [e]
  exact ⟨exact_cut_nonneg (by linarith), exact_cut_lt (by linarith) (by linarith) hn⟩

variable [Arith] [Arith.Lawful]

/-! ### choosing the best -/


omit [Arith] [Arith.Lawful] in
theorem bestLoop_spec {α : Type} (score : α → Rat) : ∀ (l : List α) (b : Option α) (v : Rat),
    (bestLoop score (b, v) l = (b, v) ∧ ∀ c ∈ l, score c ≤ v) ∨
    ∃ pre c post, l = pre ++ c :: post ∧ bestLoop score (b, v) l = (some c, score c) ∧ v < score c ∧
      (∀ d ∈ pre, score d < score c) ∧ ∀ d ∈ post, score d ≤ score c := by
  intro l
  induction l with
  | nil => intro b v; exact Or.inl ⟨rfl, by simp⟩
  | cons a l ih =>
    intro b v
    rw [bestLoop]
    by_cases h : v < score a
    · simp only [h, if_true]
      rcases ih (some a) (score a) with ⟨h1, h2⟩ | ⟨pre, c, post, rfl, h1, h2, h3, h4⟩
      · exact Or.inr ⟨[], a, l, rfl, h1, h, by simp, h2⟩
      · refine Or.inr ⟨a :: pre, c, post, rfl, h1, lt_trans h h2, ?_, h4⟩
        intro d hd
        rcases List.mem_cons.mp hd with rfl | hd
        · exact h2
        · exact h3 d hd
    · simp only [h, if_false]
      rcases ih b v with ⟨h1, h2⟩ | ⟨pre, c, post, rfl, h1, h2, h3, h4⟩
      · refine Or.inl ⟨h1, ?_⟩
        intro c hc
        rcases List.mem_cons.mp hc with rfl | hc
        · exact not_lt.mp h
        · exact h2 c hc
      · refine Or.inr ⟨a :: pre, c, post, rfl, h1, h2, ?_, h4⟩
        intro d hd
        rcases List.mem_cons.mp hd with rfl | hd
        · exact lt_of_le_of_lt (not_lt.mp h) h2
        · exact h3 d hd

omit [Arith] [Arith.Lawful] in
theorem ruleCovers_step {cn : CatNap} (hw : cn.WF) (r : List Cond) (c : Cond) (s : List Label) :
    cn.condCovers c (some (cn.ruleCovers r (some s))) = cn.ruleCovers (r ++ [c]) (some s) := by
  rw [CatNap.condCovers_some, CatNap.ruleCovers_some, CatNap.ruleCovers_some, List.filter_filter]
  apply List.filter_congr
  intro l _
  rw [CatNap.hit_append hw, Bool.and_comm]

/-- The gain of adding `c` to `r`, in terms of rule coverage. -/
def stepGain (cn : CatNap) (pos neg : List Label) (r : List Cond) (c : Cond) : Rat :=
  Arith.gain (cn.ruleCovers r (some pos)).length (cn.ruleCovers r (some neg)).length
    (cn.ruleCovers (r ++ [c]) (some pos)).length (cn.ruleCovers (r ++ [c]) (some neg)).length

omit [Arith.Lawful] in
theorem gainCn_eq {cn : CatNap} (hw : cn.WF) (pos neg : List Label) (r : List Cond) (c : Cond) :
    gainCn cn c (cn.ruleCovers r (some pos)) (cn.ruleCovers r (some neg)) =
      stepGain cn pos neg r c := by
  unfold gainCn stepGain
  rw [ruleCovers_step hw, ruleCovers_step hw]

omit [Arith.Lawful] in
theorem bestSucc_some {cn : CatNap} (hw : cn.WF) {r r' : List Cond} {pos neg : List Label}
    (h : bestRuleSuccessorCn cn r pos neg = some r') :
    ∃ pre c post, cn.conds = pre ++ c :: post ∧ r' = r ++ [c] ∧ 1 < stepGain cn pos neg r c ∧
      (∀ d ∈ pre, stepGain cn pos neg r d < stepGain cn pos neg r c) ∧
      ∀ d ∈ post, stepGain cn pos neg r d ≤ stepGain cn pos neg r c := by
  unfold bestRuleSuccessorCn at h
  simp only [gainCn_eq hw] at h
  rcases bestLoop_spec (fun c => stepGain cn pos neg r c) cn.conds none 0 with
    ⟨h1, h2⟩ | ⟨pre, c, post, h0, h1, h2, h3, h4⟩
  · rw [h1] at h; simp at h
  · rw [h1] at h
    simp only at h
    split at h
    · rename_i hg
      injection h with h
      exact ⟨pre, c, post, h0, h.symm, hg, h3, h4⟩
    · simp at h

omit [Arith.Lawful] in
theorem bestSucc_none {cn : CatNap} (hw : cn.WF) {r : List Cond} {pos neg : List Label}
    (h : bestRuleSuccessorCn cn r pos neg = none) : ∀ c ∈ cn.conds, stepGain cn pos neg r c ≤ 1 := by
  unfold bestRuleSuccessorCn at h
  simp only [gainCn_eq hw] at h
  rcases bestLoop_spec (fun c => stepGain cn pos neg r c) cn.conds none 0 with
    ⟨h1, h2⟩ | ⟨pre, c, post, h0, h1, h2, h3, h4⟩
  · intro c hc; exact le_trans (h2 c hc) (by norm_num)
  · rw [h1] at h
    simp only at h
    split at h
    · simp at h
    · rename_i hg
      have hg := not_lt.mp hg
      intro d hd
      rw [h0] at hd
      rcases List.mem_append.mp hd with hd | hd
      · exact le_trans (le_of_lt (h3 d hd)) hg
      · rcases List.mem_cons.mp hd with rfl | hd
        · exact hg
        · exact le_trans (h4 d hd) hg

omit [Arith] [Arith.Lawful] in
theorem filter_length_mono {l : List Label} {f g : Label → Bool} (h : ∀ x ∈ l, f x = true → g x = true) :
    (l.filter f).length ≤ (l.filter g).length := by
  induction l with
  | nil => simp
  | cons a l ih =>
    have ih := ih (fun x hx => h x (List.mem_cons_of_mem _ hx))
    have ha := h a List.mem_cons_self
    simp only [List.filter_cons]
    cases hf : f a <;> cases hg : g a <;> simp_all <;> omega

omit [Arith] [Arith.Lawful] in
theorem filter_length_eq {l : List Label} {f g : Label → Bool} (h : ∀ x ∈ l, f x = true → g x = true)
    (he : (l.filter g).length ≤ (l.filter f).length) : ∀ x ∈ l, g x = true → f x = true := by
  induction l with
  | nil => simp
  | cons a l ih =>
    have hm := filter_length_mono (fun x hx => h x (List.mem_cons_of_mem _ hx))
    have ha := h a List.mem_cons_self
    intro x hx hg
    simp only [List.filter_cons] at he
    rcases List.mem_cons.mp hx with rfl | hx
    · cases hf : f x
      · simp [hf, hg] at he; omega
      · rfl
    · refine ih (fun x hx => h x (List.mem_cons_of_mem _ hx)) ?_ x hx hg
      cases hf : f a <;> cases hg' : g a <;> simp_all <;> omega

omit [Arith] [Arith.Lawful] in
theorem ruleCovers_snoc_le {cn : CatNap} (hw : cn.WF) (r : List Cond) (c : Cond) (s : List Label) :
    (cn.ruleCovers (r ++ [c]) (some s)).length ≤ (cn.ruleCovers r (some s)).length := by
  rw [CatNap.ruleCovers_some, CatNap.ruleCovers_some]
  apply filter_length_mono
  intro l _ h
  rw [CatNap.hit_append hw] at h
  simp at h; exact h.1

/-- A useful step: one more condition of the index, still hitting some positive, and missing some
negative that was hit before. -/
structure UsefulStep (cn : CatNap) (pos neg : List Label) (r : List Cond) (c : Cond) : Prop where
  mem : c ∈ cn.conds
  keeps : ∃ l ∈ pos, cn.hit (r ++ [c]) l = true
  loses : ∃ l ∈ neg, cn.hit r l = true ∧ cn.hit (r ++ [c]) l = false

theorem stepGain_useful {cn : CatNap} (hw : cn.WF) {r : List Cond} {c : Cond} {pos neg : List Label}
    (h : 1 < stepGain cn pos neg r c) :
    (∃ l ∈ pos, cn.hit (r ++ [c]) l = true) ∧
    (∃ l ∈ neg, cn.hit r l = true ∧ cn.hit (r ++ [c]) l = false) ∧
    (cn.ruleCovers (r ++ [c]) (some neg)).length < (cn.ruleCovers r (some neg)).length := by
  obtain ⟨h1, h2⟩ := Arith.Lawful.gain_loses _ _ _ _ (ruleCovers_snoc_le hw r c pos) h
  refine ⟨?_, ?_, h2⟩
  · rw [CatNap.ruleCovers_some] at h1
    obtain ⟨l, hl⟩ := List.exists_mem_of_length_pos h1
    exact ⟨l, (List.mem_filter.mp hl).1, (List.mem_filter.mp hl).2⟩
  · by_contra hc
    rw [CatNap.ruleCovers_some, CatNap.ruleCovers_some] at h2
    have : (neg.filter (cn.hit r)).length ≤ (neg.filter (cn.hit (r ++ [c]))).length := by
      apply filter_length_mono
      intro l hl hh
      by_contra hx
      exact hc ⟨l, hl, hh, by simpa using hx⟩
    omega

theorem bestSucc_useful {cn : CatNap} (hw : cn.WF) {r r' : List Cond} {pos neg : List Label}
    (h : bestRuleSuccessorCn cn r pos neg = some r') :
    ∃ c, r' = r ++ [c] ∧ UsefulStep cn pos neg r c ∧
      (cn.ruleCovers r' (some neg)).length < (cn.ruleCovers r (some neg)).length := by
  obtain ⟨pre, c, post, h0, h1, h2, _, _⟩ := bestSucc_some hw h
  obtain ⟨h3, h4, h5⟩ := stepGain_useful hw h2
  exact ⟨c, h1, ⟨by rw [h0]; simp, h3, h4⟩, by rw [h1]; exact h5⟩

/-- `r` is reached from `init` by useful steps. -/
inductive GrowChain (cn : CatNap) (pos neg : List Label) (init : List Cond) : List Cond → Prop where
  | refl : GrowChain cn pos neg init init
  | snoc {r c} : GrowChain cn pos neg init r → UsefulStep cn pos neg r c →
      GrowChain cn pos neg init (r ++ [c])

omit [Arith.Lawful] in
theorem growStepCn_cases {cn : CatNap} {lim : Limits} {pos neg : List Label} {r : List Cond}
    {o : Step (List Cond) (List Cond)} (h : growStepCn cn lim pos neg r = .ok o) :
    ((cn.ruleCovers r (some neg)).length = 0 ∧ o = .done r) ∨
    ((cn.ruleCovers r (some neg)).length ≠ 0 ∧
      userHalt lim r (cn.ruleCovers r (some neg)).length (cn.ruleCovers r (some pos)).length = true ∧
      o = .done (haltRule lim r)) ∨
    ((cn.ruleCovers r (some neg)).length ≠ 0 ∧
      userHalt lim r (cn.ruleCovers r (some neg)).length (cn.ruleCovers r (some pos)).length = false ∧
      ((bestRuleSuccessorCn cn r pos neg = none ∧ o = .done r) ∨
        ∃ r', bestRuleSuccessorCn cn r pos neg = some r' ∧ o = .more r')) := by
  unfold growStepCn at h
  simp only at h
  split at h
  · rename_i h0; injection h with h; exact Or.inl ⟨h0, h.symm⟩
  · rename_i h0
    split at h
    · rename_i h1; injection h with h; exact Or.inr (Or.inl ⟨h0, h1, h.symm⟩)
    · rename_i h1
      refine Or.inr (Or.inr ⟨h0, by simpa using h1, ?_⟩)
      cases hb : bestRuleSuccessorCn cn r pos neg with
      | none => rw [hb] at h; injection h with h; exact Or.inl ⟨rfl, h.symm⟩
      | some r' => rw [hb] at h; injection h with h; exact Or.inr ⟨r', rfl, h.symm⟩

omit [Arith.Lawful] in
theorem growStepCn_ne_error {cn : CatNap} {lim : Limits} {pos neg : List Label} {r : List Cond} :
    ∃ o, growStepCn cn lim pos neg r = .ok o := by
  unfold growStepCn
  simp only
  split
  · exact ⟨_, rfl⟩
  · split
    · exact ⟨_, rfl⟩
    · split <;> exact ⟨_, rfl⟩

/-- The postcondition of growth. `min` is the halting information. -/
structure GrowPost (cn : CatNap) (lim : Limits) (pos neg : List Label) (init r : List Cond) : Prop where
  chain : ∃ r0, GrowChain cn pos neg init r0 ∧
    (r = r0 ∨ (lim.minRuleSamples.isSome = true ∧ r0 ≠ [] ∧ r = r0.dropLast))
  len : ∀ m, lim.maxRuleConds = some m → (r.length : Int) ≤ max m init.length
  samples : ∀ m, lim.minRuleSamples = some m → init = [] →
    r = [] ∨ cn.ruleCovers r (some neg) = [] ∨
      m ≤ (cn.ruleCovers r (some neg)).length + (cn.ruleCovers r (some pos)).length

/-- Invariant of the growing loop. -/
structure GrowInv (cn : CatNap) (lim : Limits) (pos neg : List Label) (init r : List Cond) : Prop where
  chain : GrowChain cn pos neg init r
  len : ∀ m, lim.maxRuleConds = some m → (r.length : Int) ≤ max m init.length
  prev : ∀ m, lim.minRuleSamples = some m → init = [] → r = [] ∨
    m ≤ (cn.ruleCovers r.dropLast (some neg)).length + (cn.ruleCovers r.dropLast (some pos)).length

omit [Arith] [Arith.Lawful] in
theorem atLeast_eq_false {x : Int} {o : Option Int} (h : atLeast x o = false) {m : Int} (hm : o = some m) :
    x < m := by
  subst hm; simp [atLeast] at h; exact h

omit [Arith] [Arith.Lawful] in
theorem below_eq_false {x : Int} {o : Option Int} (h : below x o = false) {m : Int} (hm : o = some m) :
    m ≤ x := by
  subst hm; simp [below] at h; exact h

theorem growInv_step {cn : CatNap} (hw : cn.WF) {lim : Limits} {pos neg : List Label}
    {init r r' : List Cond} (hI : GrowInv cn lim pos neg init r)
    (h : growStepCn cn lim pos neg r = .ok (.more r')) :
    GrowInv cn lim pos neg init r' ∧
      (cn.ruleCovers r' (some neg)).length < (cn.ruleCovers r (some neg)).length := by
  rcases growStepCn_cases h with ⟨_, h⟩ | ⟨_, _, h⟩ | ⟨h0, hu, ⟨_, h⟩ | ⟨r'', hb, h⟩⟩
  · cases h
  · cases h
  · cases h
  · injection h with h; subst h
    obtain ⟨c, rfl, hus, hlt⟩ := bestSucc_useful hw hb
    unfold userHalt at hu
    simp only [Bool.or_eq_false_iff] at hu
    refine ⟨⟨.snoc hI.chain hus, ?_, ?_⟩, hlt⟩
    · intro m hm
      have := atLeast_eq_false hu.1 hm
      simp only [List.length_append, List.length_cons, List.length_nil]
      push_cast
      omega
    · intro m hm _
      right
      rw [List.dropLast_concat]
      have := below_eq_false hu.2 hm
      exact_mod_cast this

omit [Arith.Lawful] in
theorem growInv_done {cn : CatNap} {lim : Limits} {pos neg : List Label}
    {init r a : List Cond} (hI : GrowInv cn lim pos neg init r)
    (h : growStepCn cn lim pos neg r = .ok (.done a)) : GrowPost cn lim pos neg init a := by
  rcases growStepCn_cases h with ⟨h0, h⟩ | ⟨h0, hu, h⟩ | ⟨h0, hu, ⟨_, h⟩ | ⟨r'', hb, h⟩⟩
  · injection h with h; subst h
    exact ⟨⟨_, hI.chain, Or.inl rfl⟩, hI.len, fun m _ _ => Or.inr (Or.inl (List.length_eq_zero_iff.mp h0))⟩
  · injection h with h; subst h
    unfold haltRule
    by_cases hp : lim.minRuleSamples.isSome = true ∧ r ≠ []
    · have : (lim.minRuleSamples.isSome && !r.isEmpty) = true := by simp [hp.1, hp.2]
      simp only [this, if_true]
      refine ⟨⟨_, hI.chain, Or.inr ⟨hp.1, hp.2, rfl⟩⟩, ?_, ?_⟩
      · intro m hm
        have := hI.len m hm
        have h2 : r.dropLast.length ≤ r.length := by simp
        have h3 : (r.dropLast.length : Int) ≤ r.length := by exact_mod_cast h2
        omega
      · intro m hm he
        rcases hI.prev m hm he with h | h
        · exact absurd h hp.2
        · exact Or.inr (Or.inr (by exact_mod_cast h))
    · have hf : (lim.minRuleSamples.isSome && !r.isEmpty) = false := by
        by_cases h1 : lim.minRuleSamples.isSome = true
        · have : r = [] := by by_contra h2; exact hp ⟨h1, h2⟩
          simp [this]
        · simp [Bool.eq_false_iff.mpr h1]
      simp only [hf, Bool.false_eq_true, if_false]
      refine ⟨⟨_, hI.chain, Or.inl rfl⟩, hI.len, ?_⟩
      intro m hm _
      left
      by_contra h2
      exact hp ⟨by simp [hm], h2⟩
  · injection h with h; subst h
    refine ⟨⟨_, hI.chain, Or.inl rfl⟩, hI.len, ?_⟩
    intro m hm _
    unfold userHalt at hu
    simp only [Bool.or_eq_false_iff] at hu
    have := below_eq_false hu.2 hm
    exact Or.inr (Or.inr (by exact_mod_cast this))
  · cases h

omit [Arith] [Arith.Lawful] in
theorem growInv_init {cn : CatNap} {lim : Limits} {pos neg : List Label} {init : List Cond} :
    GrowInv cn lim pos neg init init :=
  ⟨.refl, fun m _ => by omega, fun _ _ h => Or.inl h⟩

/-- Growth: every result satisfies the postcondition. -/
theorem growRuleCn_post {fuel : Nat} {cn : CatNap} (hw : cn.WF) {lim : Limits} {pos neg : List Label}
    {init r : List Cond} (h : growRuleCn fuel cn lim pos neg init = .ok r) :
    GrowPost cn lim pos neg init r :=
  pyWhile_inv (I := GrowInv cn lim pos neg init) (Q := GrowPost cn lim pos neg init)
    (fun _ _ hI hb => (growInv_step hw hI hb).1) (fun _ _ hI hb => growInv_done hI hb)
    fuel init r growInv_init h

/-- Growth terminates: one step per covered negative. -/
theorem growRuleCn_total {fuel : Nat} {cn : CatNap} (hw : cn.WF) {lim : Limits} {pos neg : List Label}
    {init : List Cond} (hf : (cn.ruleCovers init (some neg)).length < fuel) :
    ∃ r, growRuleCn fuel cn lim pos neg init = .ok r ∧ GrowPost cn lim pos neg init r := by
  refine pyWhile_total (I := GrowInv cn lim pos neg init) (Q := GrowPost cn lim pos neg init)
    (m := fun r => (cn.ruleCovers r (some neg)).length) ?_ fuel init growInv_init hf
  intro s hI
  obtain ⟨o, ho⟩ := growStepCn_ne_error (cn := cn) (lim := lim) (pos := pos) (neg := neg) (r := s)
  cases o with
  | more s' => exact Or.inr ⟨s', ho, growInv_step hw hI ho⟩
  | done a => exact Or.inl ⟨a, ho, growInv_done hI ho⟩

theorem growRuleCn_stable {fuel fuel' : Nat} {cn : CatNap} (hw : cn.WF) {lim : Limits}
    {pos neg : List Label} {init : List Cond} (hf : (cn.ruleCovers init (some neg)).length < fuel)
    (hf' : (cn.ruleCovers init (some neg)).length < fuel') :
    growRuleCn fuel cn lim pos neg init = growRuleCn fuel' cn lim pos neg init :=
  pyWhile_stable (I := GrowInv cn lim pos neg init)
    (m := fun r => (cn.ruleCovers r (some neg)).length) (fun _ _ hI hb => growInv_step hw hI hb)
    (fun _ _ => rfl) fuel fuel' init growInv_init hf hf'

omit [Arith] [Arith.Lawful] in
theorem ruleCovers_length_le {cn : CatNap} {r : List Cond} {s : List Label} :
    (cn.ruleCovers r (some s)).length ≤ s.length := by
  rw [CatNap.ruleCovers_some]; exact List.length_filter_le _ _

omit [Arith] [Arith.Lawful] in
/-- A chain starting at `init` only appends. -/
theorem GrowChain.prefix {cn : CatNap} {pos neg : List Label} {init r : List Cond}
    (h : GrowChain cn pos neg init r) : init <+: r := by
  induction h with
  | refl => exact List.prefix_rfl
  | snoc _ _ ih => exact ih.trans (List.prefix_append _ _)

omit [Arith] [Arith.Lawful] in
/-- A non-trivial chain still hits a positive. -/
theorem GrowChain.keeps {cn : CatNap} {pos neg : List Label} {init r : List Cond}
    (h : GrowChain cn pos neg init r) : r = init ∨ ∃ l ∈ pos, cn.hit r l = true := by
  cases h with
  | refl => exact Or.inl rfl
  | snoc _ hu => exact Or.inr hu.keeps

omit [Arith] [Arith.Lawful] in
theorem GrowChain.mem {cn : CatNap} {pos neg : List Label} {init r : List Cond}
    (h : GrowChain cn pos neg init r) : ∀ c ∈ r, c ∈ init ∨ c ∈ cn.conds := by
  induction h with
  | refl => intro c hc; exact Or.inl hc
  | snoc _ hu ih =>
    intro c hc
    rcases List.mem_append.mp hc with hc | hc
    · exact ih c hc
    · simp at hc; subst hc; exact Or.inr hu.mem

/-- A rule grown from the empty rule over examples of the index covers one of its positives. -/
theorem growRuleCn_covers_pos {fuel : Nat} {cn : CatNap} (hw : cn.WF) {lim : Limits}
    {pos neg : List Label} {r : List Cond} (h : growRuleCn fuel cn lim pos neg [] = .ok r)
    (hp : pos ≠ []) (hsub : ∀ l ∈ pos, l ∈ cn.all) : ∃ l ∈ pos, cn.hit r l = true := by
  obtain ⟨r0, hc, hr⟩ := (growRuleCn_post hw h).chain
  have h0 : ∃ l ∈ pos, cn.hit r0 l = true := by
    rcases hc.keeps with h | h
    · subst h
      obtain ⟨l, hl⟩ := List.exists_mem_of_ne_nil _ hp
      exact ⟨l, hl, by simp [CatNap.hit, hsub l hl]⟩
    · exact h
  rcases hr with rfl | ⟨_, _, rfl⟩
  · exact h0
  · obtain ⟨l, hl, hh⟩ := h0
    exact ⟨l, hl, CatNap.hit_mono hw (fun c hc => List.dropLast_subset _ hc) hh⟩

/-! ### pruning -/

omit [Arith] [Arith.Lawful] in
/-- Outcome of the pruning loop over the prefixes of length `n, ..., 1`, when the metric is total. -/
theorem pruneLoop_spec {metric : List Cond → Except PyErr (Option Rat)} {val : List Cond → Rat}
    {rule : List Cond} (hm : ∀ k, 1 ≤ k → k ≤ rule.length → metric (rule.take k) = .ok (some (val (rule.take k)))) :
    ∀ (n : Nat) (b : List Cond) (v : Rat), n ≤ rule.length →
    (pruneLoop metric rule n (b, v) = .ok (some b) ∧ ∀ k, 1 ≤ k → k ≤ n → val (rule.take k) < v) ∨
    ∃ k, 1 ≤ k ∧ k ≤ n ∧ pruneLoop metric rule n (b, v) = .ok (some (rule.take k)) ∧
      v ≤ val (rule.take k) ∧ (∀ j, k < j → j ≤ n → val (rule.take j) ≤ val (rule.take k)) ∧
      ∀ j, 1 ≤ j → j < k → val (rule.take j) < val (rule.take k) := by
  intro n
  induction n with
  | zero => intro b v _; exact Or.inl ⟨rfl, by intro k h1 h2; omega⟩
  | succ n ih =>
    intro b v hn
    rw [pruneLoop, hm (n + 1) (by omega) hn]
    simp only [ok_bind]
    by_cases h : v ≤ val (rule.take (n + 1))
    · simp only [h, if_true]
      rcases ih (rule.take (n + 1)) (val (rule.take (n + 1))) (by omega) with
        ⟨h1, h2⟩ | ⟨k, hk1, hk2, h3, h4, h5, h6⟩
      · refine Or.inr ⟨n + 1, by omega, le_refl _, h1, h, ?_, ?_⟩
        · intro j h1 h2; omega
        · intro j hj1 hj2; exact h2 j hj1 (by omega)
      · refine Or.inr ⟨k, hk1, by omega, h3, le_trans h h4, ?_, h6⟩
        intro j hj1 hj2
        by_cases hj : j = n + 1
        · subst hj; exact h4
        · exact h5 j hj1 (by omega)
    · simp only [h, if_false]
      rcases ih b v (by omega) with ⟨h1, h2⟩ | ⟨k, hk1, hk2, h3, h4, h5, h6⟩
      · refine Or.inl ⟨h1, ?_⟩
        intro k hk1 hk2
        by_cases hk : k = n + 1
        · subst hk; exact not_le.mp h
        · exact h2 k hk1 (by omega)
      · refine Or.inr ⟨k, hk1, by omega, h3, h4, ?_, h6⟩
        intro j hj1 hj2
        by_cases hj : j = n + 1
        · subst hj; exact le_trans (le_of_lt (not_le.mp h)) h4
        · exact h5 j hj1 (by omega)

omit [Arith] [Arith.Lawful] in
theorem pruneLoop_prefix {metric : List Cond → Except PyErr (Option Rat)} {rule : List Cond} :
    ∀ (n : Nat) (b : List Cond) (v : Rat) (o : List Cond), n ≤ rule.length →
    pruneLoop metric rule n (b, v) = .ok (some o) → o = b ∨ ∃ k, 1 ≤ k ∧ k ≤ n ∧ o = rule.take k := by
  intro n
  induction n with
  | zero => intro b v o _ h; simp [pruneLoop] at h; exact Or.inl h.symm
  | succ n ih =>
    intro b v o hn h
    rw [pruneLoop] at h
    cases hm : metric (rule.take (n + 1)) with
    | error e => rw [hm] at h; simp at h
    | ok w =>
      rw [hm] at h
      simp only [ok_bind] at h
      cases w with
      | none => simp at h
      | some w =>
        simp only at h
        by_cases hv : v ≤ w
        · simp only [hv, if_true] at h
          rcases ih _ _ _ (by omega) h with h | ⟨k, h1, h2, h3⟩
          · exact Or.inr ⟨n + 1, by omega, le_refl _, h⟩
          · exact Or.inr ⟨k, h1, by omega, h3⟩
        · simp only [hv, if_false] at h
          rcases ih _ _ _ (by omega) h with h | ⟨k, h1, h2, h3⟩
          · exact Or.inl h
          · exact Or.inr ⟨k, h1, by omega, h3⟩

omit [Arith] [Arith.Lawful] in
/-- A pruned rule is a prefix of the rule, and non-empty unless the rule is empty. -/
theorem pruneRule_prefix {metric : List Cond → Except PyErr (Option Rat)} {rule o : List Cond}
    (h : pruneRule metric rule = .ok (some o)) : o <+: rule ∧ (o = [] → rule = []) := by
  unfold pruneRule at h
  split at h
  · injection h with h; injection h with h; subst h; exact ⟨List.prefix_rfl, id⟩
  · rename_i hne
    rcases pruneLoop_prefix _ _ _ _ (le_refl _) h with rfl | ⟨k, h1, h2, rfl⟩
    · exact ⟨List.prefix_rfl, id⟩
    · refine ⟨List.take_prefix _ _, ?_⟩
      intro he
      rw [List.take_eq_nil_iff] at he
      rcases he with he | he
      · omega
      · exact he

omit [Arith] [Arith.Lawful] in
theorem pruneLoopRs_prefix {metric : List Cond → Except PyErr (Option Rat)} {rule : List Cond} :
    ∀ (n : Nat) (b : Option (List Cond)) (v : Rat) (o : List Cond), n ≤ rule.length →
    pruneLoopRs metric rule n (b, v) = .ok (some o) → b = some o ∨ ∃ k, 1 ≤ k ∧ k ≤ n ∧ o = rule.take k := by
  intro n
  induction n with
  | zero =>
    intro b v o _ h
    cases b with
    | none => simp [pruneLoopRs] at h
    | some b => simp [pruneLoopRs] at h; exact Or.inl (by rw [h])
  | succ n ih =>
    intro b v o hn h
    rw [pruneLoopRs] at h
    cases hm : metric (rule.take (n + 1)) with
    | error e => rw [hm] at h; simp at h
    | ok w =>
      rw [hm] at h
      simp only [ok_bind] at h
      cases w with
      | none => simp at h
      | some w =>
        simp only at h
        by_cases hv : v ≤ w
        · simp only [hv, if_true] at h
          rcases ih _ _ _ (by omega) h with h | ⟨k, h1, h2, h3⟩
          · injection h with h; exact Or.inr ⟨n + 1, by omega, le_refl _, h.symm⟩
          · exact Or.inr ⟨k, h1, by omega, h3⟩
        · simp only [hv, if_false] at h
          rcases ih _ _ _ (by omega) h with h | ⟨k, h1, h2, h3⟩
          · exact Or.inl h
          · exact Or.inr ⟨k, h1, by omega, h3⟩

omit [Arith] [Arith.Lawful] in
theorem condsEq_refl (a : List Cond) : condsEq a a = true := by
  unfold condsEq; simp

omit [Arith] [Arith.Lawful] in
/-- The form in which the optimisation phase calls the pruning: the ruleset holds the rule itself. -/
theorem pruneRuleOn_eq {metric : List Cond → Except PyErr (Option Rat)} {rule : List Cond}
    {rules : List (List Cond)} {i : Nat} (h : rules[i]? = some rule) :
    pruneRuleOn metric rule rules i =
      if rule = [] then .ok (some rule) else pruneLoopRs metric rule rule.length (none, 0) := by
  unfold pruneRuleOn
  rw [h]
  simp [condsEq_refl]

omit [Arith] [Arith.Lawful] in
theorem pruneRuleOn_prefix {metric : List Cond → Except PyErr (Option Rat)} {rule o : List Cond}
    {rules : List (List Cond)} {i : Nat} (h0 : rules[i]? = some rule)
    (h : pruneRuleOn metric rule rules i = .ok (some o)) : o <+: rule ∧ (o = [] → rule = []) := by
  rw [pruneRuleOn_eq h0] at h
  split at h
  · injection h with h; injection h with h; subst h; exact ⟨List.prefix_rfl, id⟩
  · rcases pruneLoopRs_prefix _ _ _ _ (le_refl _) h with h | ⟨k, h1, h2, rfl⟩
    · cases h
    · refine ⟨List.take_prefix _ _, ?_⟩
      intro he
      rw [List.take_eq_nil_iff] at he
      rcases he with he | he
      · omega
      · exact he

omit [Arith] [Arith.Lawful] in
/-- With a non-negative metric the loop with the unbound variable always binds it. -/
theorem pruneLoopRs_eq_pruneLoop {metric : List Cond → Except PyErr (Option Rat)} {val : List Cond → Rat}
    {rule : List Cond}
    (hm : ∀ k, 1 ≤ k → k ≤ rule.length → metric (rule.take k) = .ok (some (val (rule.take k)))) :
    ∀ (n : Nat) (b : List Cond) (v : Rat), n ≤ rule.length →
    pruneLoopRs metric rule n (some b, v) = pruneLoop metric rule n (b, v) := by
  intro n
  induction n with
  | zero => intro b v _; rfl
  | succ n ih =>
    intro b v hn
    rw [pruneLoopRs, pruneLoop, hm (n + 1) (by omega) hn]
    simp only [ok_bind]
    by_cases h : v ≤ val (rule.take (n + 1))
    · simp only [h, if_true]; exact ih _ _ (by omega)
    · simp only [h, if_false]; exact ih _ _ (by omega)

omit [Arith] [Arith.Lawful] in
theorem pruneRuleOn_eq_pruneRule {metric : List Cond → Except PyErr (Option Rat)} {val : List Cond → Rat}
    {rule : List Cond} {rules : List (List Cond)} {i : Nat} (h0 : rules[i]? = some rule)
    (hm : ∀ k, 1 ≤ k → k ≤ rule.length → metric (rule.take k) = .ok (some (val (rule.take k))))
    (hnn : 0 ≤ val rule) :
    pruneRuleOn metric rule rules i = pruneRule metric rule := by
  rw [pruneRuleOn_eq h0, pruneRule]
  by_cases h : rule = []
  · simp [h]
  · simp only [h, if_false]
    obtain ⟨n, hn⟩ : ∃ n, rule.length = n + 1 :=
      ⟨rule.length - 1, by have := List.length_pos_of_ne_nil h; omega⟩
    rw [hn, pruneLoopRs, pruneLoop, hm (n + 1) (by omega) (by omega)]
    have ht : rule.take (n + 1) = rule := by rw [← hn]; exact List.take_length
    simp only [ok_bind, ht, hnn, if_true]
    exact pruneLoopRs_eq_pruneLoop hm n rule (val rule) (by omega)

end Witt
