import Verif.Lemmas.Mediant
import Verif.Props.Ripper
import Verif.Props.Api
import Verif.Props.Grow
/-
C69: rule growth separates the classes, and IREP without pruning reproduces consistent training data.
-/
namespace Witt
open Spec

namespace Spec
/-- The two rows agree on every column but the class. -/
def Alike (df : Frame) (cf : Feat) (a b : Row) : Prop :=
  ∀ f ∈ df.cols, f ≠ cf → Same (a.cell f) (b.cell f)
/-- The row has no missing value, except perhaps its class. -/
def NoMissing (df : Frame) (cf : Feat) (a : Row) : Prop :=
  ∀ f ∈ df.cols, f ≠ cf → a.cell f ≠ .nan
/-- No positive row agrees with a negative one on every column but the class. -/
def Consistent (df : Frame) (cf : Feat) (pc : Val) : Prop :=
  ∀ a ∈ df.rows, ∀ b ∈ df.rows, Positive cf pc a → Alike df cf a b → Positive cf pc b
end Spec

theorem growRuleCn_stops [Arith] {fuel : Nat} {cn : CatNap} {lim : Limits} (hl : lim.maxRuleConds = none ∧ lim.minRuleSamples = none)
    {pos neg : List Label} {init r : List Cond} (h : growRuleCn fuel cn lim pos neg init = .ok r) :
    cn.ruleCovers r (some neg) = [] ∨ bestRuleSuccessorCn cn r pos neg = none := by
  refine pyWhile_inv (I := fun _ => True) (Q := fun r => cn.ruleCovers r (some neg) = [] ∨ bestRuleSuccessorCn cn r pos neg = none)
    (fun _ _ _ _ => trivial) ?_ fuel init r trivial h
  intro s a _ hb
  rcases growStepCn_cases hb with ⟨h0, h⟩ | ⟨_, hu, _⟩ | ⟨_, _, ⟨hn, h⟩ | ⟨_, _, h⟩⟩
  · cases h; exact .inl (List.length_eq_zero_iff.mp h0)
  · unfold userHalt at hu
    rw [hl.1, hl.2] at hu
    simp [atLeast, below] at hu
  · cases h; exact .inr hn
  · cases h

theorem same_symm' {a b : Val} (h : Same a b) : Same b a := by
  rw [← Val.pyEq_iff] at *; rw [Val.pyEq_symm]; exact h

theorem same_trans' {a b c : Val} (h : Same a b) (h' : Same b c) : Same a c := by
  rw [← Val.pyEq_iff] at *; exact Val.pyEq_trans h h'

/-- C69, growth. A rule grown without `max_rule_conds` and `min_rule_samples`, on positives without missing values: a
growing negative it still covers agrees on every column but the class with every growing positive it covers. So growth
never gives up while some column tells a covered positive from a covered negative, although each step is greedy. -/
theorem C69_growth_separates [Arith] [Arith.Lawful] (df : Frame) (cf : Feat) (cn : CatNap) (hb : CatNap.build df cf = .ok cn)
    (hu : df.UniqueIndex) (lim : Limits) (hl : lim.maxRuleConds = none ∧ lim.minRuleSamples = none) (pos neg : List Label)
    (hs : Arith.SharpUpTo (pos.length + neg.length))
    (hm : ∀ row ∈ df.rows, row.label ∈ pos → NoMissing df cf row) (init : List Cond) (hi : OverCols df cf init)
    (fuel : Nat) (r : List Cond) (h : growRuleCn fuel cn lim pos neg init = .ok r) :
    ∀ a ∈ df.rows, ∀ b ∈ df.rows, a.label ∈ pos → b.label ∈ neg → FiresC a r → FiresC b r → Alike df cf a b := by
  intro a ha b hb' hap hbn hfa hfb
  have hw := CatNap.build_WF hb
  obtain ⟨r0, hc, hr⟩ := (growRuleCn_post hw h).chain
  have hsub : r <+: r0 := by
    rcases hr with rfl | ⟨_, _, rfl⟩
    · exact List.prefix_rfl
    · exact List.dropLast_prefix _
  have hov : OverCols df cf r := fun c hx => hc.overCols hb hi c (hsub.subset hx)
  have hita : cn.hit r a.label = true := (CatNap.hit_iff hb hu hov).mpr ⟨a, ha, rfl, hfa⟩
  have hitb : cn.hit r b.label = true := (CatNap.hit_iff hb hu hov).mpr ⟨b, hb', rfl, hfb⟩
  have haP : a.label ∈ cn.ruleCovers r (some pos) := by
    rw [CatNap.ruleCovers_some]; exact List.mem_filter.2 ⟨hap, hita⟩
  have hbN : b.label ∈ cn.ruleCovers r (some neg) := by
    rw [CatNap.ruleCovers_some]; exact List.mem_filter.2 ⟨hbn, hitb⟩
  rcases growRuleCn_stops hl h with h0 | h0
  · rw [h0] at hbN; simp at hbN
  · intro f hf hne
    by_contra hns
    have hnone := bestSucc_none hw h0
    obtain ⟨hpw, hsubu, hrep⟩ := unique_spec (df.dropCol cf) f
    let U : Finset Val := ((df.dropCol cf).unique f).toFinset
    let m : Val → Label → Bool := fun v l => (cn.lookup ⟨f, v⟩).contains l
    have hmatch : ∀ v, ∀ row ∈ df.rows, (m v row.label = true ↔ Same (row.cell f) v) := by
      intro v row hrow
      simp only [m, List.contains_iff_mem, CatNap.mem_lookup hb]
      constructor
      · rintro ⟨_, row', hr', hlab, hmet⟩
        have : row' = row := row_eq_of_label hu hr' hrow hlab
        subst this
        exact Cond.met_iff.mp hmet
      · intro hs
        exact ⟨⟨hf, hne⟩, row, hrow, rfl, Cond.met_iff.mpr hs⟩
    have hmemP : ∀ l ∈ cn.ruleCovers r (some pos), ∃ row ∈ df.rows, row.label = l ∧ l ∈ pos := by
      intro l hl'
      rw [CatNap.ruleCovers_some, List.mem_filter] at hl'
      obtain ⟨row, hrow, hlab, _⟩ := (CatNap.hit_iff hb hu hov).mp hl'.2
      exact ⟨row, hrow, hlab, hl'.1⟩
    have hmemN : ∀ l ∈ cn.ruleCovers r (some neg), ∃ row ∈ df.rows, row.label = l := by
      intro l hl'
      rw [CatNap.ruleCovers_some, List.mem_filter] at hl'
      obtain ⟨row, hrow, hlab, _⟩ := (CatNap.hit_iff hb hu hov).mp hl'.2
      exact ⟨row, hrow, hlab⟩
    have hval : ∀ row ∈ df.rows, row.cell f ≠ .nan → ∃ v ∈ U, Same (row.cell f) v := by
      intro row hrow hnn
      obtain ⟨v, hv, hs⟩ := hrep row hrow
      refine ⟨v, List.mem_toFinset.mpr hv, ?_⟩
      rcases hs with hs | ⟨_, hs⟩
      · exact same_symm' hs
      · exact absurd hs hnn
    have hP : ∀ l ∈ cn.ruleCovers r (some pos), ∃ v ∈ U, m v l = true := by
      intro l hl'
      obtain ⟨row, hrow, rfl, hpos⟩ := hmemP l hl'
      obtain ⟨v, hv, hs⟩ := hval row hrow (hm row hrow hpos f hf hne)
      exact ⟨v, hv, (hmatch v row hrow).mpr hs⟩
    have hN : ∀ l ∈ cn.ruleCovers r (some neg), ∀ v ∈ U, ∀ w ∈ U, m v l = true → m w l = true → v = w := by
      intro l hl' v hv w hw' h1 h2
      obtain ⟨row, hrow, rfl⟩ := hmemN l hl'
      rw [hmatch _ row hrow] at h1 h2
      by_contra hvw
      have : Std.Symm (fun x y : Val => ¬ SameLabel x y) := ⟨fun x y hxy hyx => hxy (sameLabel_symm hyx)⟩
      exact hpw.forall (List.mem_toFinset.mp hv) (List.mem_toFinset.mp hw') hvw
        (Or.inl (same_trans' (same_symm' h1) h2))
    obtain ⟨u, hu', hus⟩ := hval a ha (hm a ha hap f hf hne)
    have huy : m u b.label = false := by
      cases hq : m u b.label
      · rfl
      · exact absurd (same_trans' hus (same_symm' ((hmatch u b hb').mp hq))) hns
    obtain ⟨v, hv, hv1, hv2⟩ := exists_gain m U _ _ hP hN u hu' a.label haP ((hmatch u a ha).mpr hus) b.label hbN huy
    have hcond : (⟨f, v⟩ : Cond) ∈ cn.conds := by
      rw [CatNap.build_conds hb]
      exact mem_possibleConds.mpr ⟨Frame.mem_dropCol.mpr ⟨hf, hne⟩, List.mem_toFinset.mp hv⟩
    have hle := hnone _ hcond
    have hstep : ∀ s : List Label, (cn.ruleCovers (r ++ [⟨f, v⟩]) (some s)).length = hits m v (cn.ruleCovers r (some s)) := by
      intro s
      unfold hits
      rw [CatNap.ruleCovers_some, CatNap.ruleCovers_some, List.filter_filter]
      congr 1
      apply List.filter_congr
      intro l _
      rw [CatNap.hit_append hw, Bool.and_comm]
    unfold stepGain at hle
    rw [hstep, hstep] at hle
    have hcl : ∀ s : List Label, (cn.ruleCovers r (some s)).length ≤ s.length := by
      intro s; rw [CatNap.ruleCovers_some]; exact List.length_filter_le _ _
    refine absurd hle (not_le.mpr (hs _ _ _ _ (Nat.add_le_add (hcl pos) (hcl neg)) (List.length_filter_le _ _)
      (List.length_filter_le _ _) hv1 ?_))
    clear hcl
    generalize (cn.ruleCovers r (some pos)).length = p at *
    generalize (cn.ruleCovers r (some neg)).length = n at *
    generalize hits m v (cn.ruleCovers r (some pos)) = p1 at *
    generalize hits m v (cn.ruleCovers r (some neg)) = n1 at *
    nlinarith

/-- The rules of a reachable state of IREP without pruning cover no negative of consistent data. -/
theorem irepReach_pure [Arith] [Arith.Lawful] {fuel : Nat} {R : PyRandom} (hR : R.Lawful) {cn : CatNap} {hp : Hyper} {df : Frame} {cf : Feat} {pc : Val}
    (hb : CatNap.build df cf = .ok cn) (hu : df.UniqueIndex) (hsh : Arith.SharpUpTo df.rows.length) (hprune : hp.irepPrune = 0)
    (hl : hp.lim.maxRuleConds = none ∧ hp.lim.minRuleSamples = none)
    (hm : ∀ row ∈ df.rows, Positive cf pc row → NoMissing df cf row) (hc : Consistent df cf pc) {g : R.G} {st : GrowSt R}
    (h : IrepReach fuel R cn hp ⟨[], labelSet (posRows df cf pc).index, labelSet (negRows df cf pc).index, g⟩ st) :
    st.neg = labelSet (negRows df cf pc).index ∧ st.pos.length ≤ (posRows df cf pc).index.length ∧
      ∀ r ∈ st.rules, ∀ row ∈ df.rows, FiresC row r → Positive cf pc row := by
  induction h with
  | start => exact ⟨rfl, eraseDups_length_le _, by simp⟩
  | @add s s' rule hs ha ih =>
    obtain ⟨hneg, hlen, hrules⟩ := ih
    have hpossub := hs.pos_sub
    obtain ⟨a, b, c, d, g1, grown, h1, h2, h3, ⟨_, rfl, hn'⟩ | ⟨hz, _⟩⟩ := ha.how
    · refine ⟨by rw [hn', hneg], le_trans (by rw [ha.pos]; exact List.length_filter_le _ _) hlen, ?_⟩
      intro r hr row hrow hf
      rw [ha.rules] at hr
      rcases List.mem_append.mp hr with hr | hr
      · exact hrules r hr row hrow hf
      · simp only [List.mem_singleton] at hr
        subst hr
        by_contra hnp
        -- the whole of the remaining positives and of the negatives is used for growing
        have full : ∀ (g g' : R.G) (l x y : List Label), randomSplit R g l (Arith.complement hp.irepPrune) hp.randomState = (x, y, g') →
            ∀ z, z ∈ x ↔ z ∈ l := by
          intro g g' l x y he z
          have hone := (randomSplit_one hR g l hp.randomState).2
          have hmem := randomSplit_mem hR g l (Arith.complement hp.irepPrune) hp.randomState z
          rw [← Arith.Lawful.complement_zero, ← hprune, he] at hone
          rw [he] at hmem
          have : y = [] := hone
          rw [this] at hmem
          simpa using hmem.symm
        have hpos : ∀ row ∈ df.rows, row.label ∈ a → Positive cf pc row := by
          intro row' hr' hla
          have := hpossub _ ((full _ _ _ _ _ h1 _).mp hla)
          obtain ⟨row'', hr'', hlab, hp''⟩ := mem_posLabels.mp this
          rw [← row_eq_of_label hu hr'' hr' hlab]; exact hp''
        have hpne : a ≠ [] := by
          intro h0
          obtain ⟨l, hl'⟩ := List.exists_mem_of_ne_nil _ ha.pos_ne
          have := (full _ _ _ _ _ h1 l).mpr hl'
          rw [h0] at this; simp at this
        have haidx : ∀ l ∈ a, l ∈ df.index := by
          intro l hla
          obtain ⟨row'', hr'', hlab, _⟩ := mem_posLabels.mp (hpossub _ ((full _ _ _ _ _ h1 _).mp hla))
          exact List.mem_map.mpr ⟨row'', hr'', hlab⟩
        obtain ⟨_, _, hcov⟩ := C21_grown_rule df cf cn hb hu hp.lim a c fuel r h3
        obtain ⟨l, hla, arow, harow, rfl, hfa⟩ := hcov hpne haidx
        have hneglab : row.label ∈ c := by
          rw [full _ _ _ _ _ h2, hneg]
          exact mem_negLabels.mpr ⟨row, hrow, rfl, hnp⟩
        have hac : a.length + c.length ≤ df.rows.length := by
          have h3 := (randomSplit_perm hR s.g s.pos (Arith.complement hp.irepPrune) hp.randomState).length_eq
          have h4 := (randomSplit_perm hR g1 s.neg (Arith.complement hp.irepPrune) hp.randomState).length_eq
          rw [h1, List.length_append] at h3
          rw [h2, List.length_append, hneg] at h4
          have h5 : (labelSet (negRows df cf pc).index).length ≤ _ := eraseDups_length_le _
          have h6 : (posRows df cf pc).index.length + (negRows df cf pc).index.length = df.rows.length := by
            simp only [Frame.index, List.length_map]; exact (C53_pos_neg_partition df cf pc).2.2.2.2
          simp only at h3 h4
          omega
        have := C69_growth_separates df cf cn hb hu hp.lim hl a c (hsh.mono hac) (fun row' hr' hl' => hm row' hr' (hpos row' hr' hl')) []
          (by intro c hc; simp at hc) fuel r h3 arow harow row hrow hla hneglab hfa hf
        exact hnp (hc arow harow row hrow (hpos arow harow hla) this)
    · exact absurd hprune hz

/-- C69, no false positives. IREP without pruning (`prune_size` 0 or None), without limits on single rules and without an
initial model, trained on consistent data whose positives have no missing values: no rule of the model fires on a
negative training row. Holds with `max_rules`, `max_total_conds` or `min_ruleset_samples` too. -/
theorem C69_irep_no_false_positives [Arith] [Arith.Lawful] (R : PyRandom) (hR : R.Lawful) (hp : Hyper) (hprune : hp.irepPrune = 0)
    (hl : hp.lim.maxRuleConds = none ∧ hp.lim.minRuleSamples = none)
    (df : Frame) (cf : Feat) (pc : Val) (hu : df.UniqueIndex) (hs : Arith.SharpUpTo df.rows.length)
    (hm : ∀ row ∈ df.rows, Positive cf pc row → NoMissing df cf row) (hc : Consistent df cf pc)
    (fuel : Nat) (g g' : R.G) (m : Fitted) (h : irepFit fuel R hp [] df cf pc g = .ok (m, g')) :
    ∀ row ∈ df.rows, FiresAny row m.ruleset.rules → Positive cf pc row := by
  obtain ⟨_, cn, st, hb, hg, hmm, _⟩ := irepFit_ok h
  obtain ⟨s, hr, h1, _⟩ := irepGrowCn_reach hg
  have hpure := (irepReach_pure hR hb hu hs hprune hl hm hc hr).2.2
  rintro row hrow ⟨r, hr, hf⟩
  refine hpure r.conds ?_ row hrow hf
  have : r.conds ∈ m.ruleset.rules.map Rule.conds := List.mem_map.mpr ⟨r, hr, rfl⟩
  rw [hmm] at this
  rw [← h1]
  exact (finish_sublist _ _).subset this

/-- C69. IREP without pruning, limits and initial model reproduces its training data: if the data is consistent, the
positives have no missing values and nothing prints like something else, predict answers True on exactly the positive
training rows. -/
theorem C69_irep_reproduces_training_data [Arith] [Arith.Lawful] (R : PyRandom) (hR : R.Lawful) (hp : Hyper) (hprune : hp.irepPrune = 0)
    (hl : hp.lim = {}) (df : Frame) (cf : Feat) (pc : Val) (hu : df.UniqueIndex) (hr : ReadsApart df cf)
    (hs : Arith.SharpUpTo df.rows.length)
    (hm : ∀ row ∈ df.rows, Positive cf pc row → NoMissing df cf row) (hc : Consistent df cf pc)
    (fuel : Nat) (g g' : R.G) (m : Fitted) (h : irepFit fuel R hp [] df cf pc g = .ok (m, g')) :
    ∃ ps, m.ruleset.predict (df.dropCol cf) = .ok ps ∧ ps.length = df.rows.length ∧
      ∀ (i : Nat) (hi : i < df.rows.length), ps[i]? = some true ↔ Positive cf pc df.rows[i] := by
  obtain ⟨p, hpr, hcov⟩ := C27_irep_covers_positives_data R hp hprune (by rw [hl]; exact ⟨rfl, rfl, rfl⟩) df cf pc hu hr fuel g g' m h
  have hno := C69_irep_no_false_positives R hR hp hprune (by rw [hl]; exact ⟨rfl, rfl⟩) df cf pc hu hs hm hc fuel g g' m h
  refine ⟨_, hpr, by simp, ?_⟩
  intro i hi
  rw [List.getElem?_map, List.getElem?_eq_getElem hi, Option.map_some, Option.some.injEq]
  have hmem : df.rows[i] ∈ df.rows := List.getElem_mem hi
  refine ⟨fun h1 => hno _ hmem ?_, hcov _ hmem⟩
  have hfeat : HasFeatures (df.dropCol cf) m.ruleset.rules := by
    intro r hr' cond hc'
    rcases C29_irep_no_leakage R hp _ _ _ _ fuel g g' m h r hr' with h | h
    · simp at h
    · exact Frame.mem_dropCol.mpr ⟨(h cond hc').1.1, (h cond hc').1.2.1⟩
  have hpu := Ruleset.predict_unique (df := df.dropCol cf) (rs := m.ruleset) hu (Or.inr hfeat)
  rw [hpr] at hpu
  injection hpu with hpu
  have := congrArg (fun l => l[i]?) hpu
  simp only [List.getElem?_map] at this
  have e : (df.dropCol cf).rows[i]? = some df.rows[i] := List.getElem?_eq_getElem hi
  rw [e, List.getElem?_eq_getElem hi, Option.map_some, Option.map_some, Option.some.injEq] at this
  rw [← rulesMet_iff, ← this]
  exact h1

instance {a b : Val} : Decidable (Same a b) := decidable_of_iff _ Val.pyEq_iff
instance {cf : Feat} {pc : Val} {row : Row} : Decidable (Positive cf pc row) := by unfold Positive; infer_instance
instance {df : Frame} {cf : Feat} {a b : Row} : Decidable (Alike df cf a b) := by unfold Alike; infer_instance
instance {df : Frame} {cf : Feat} {a : Row} : Decidable (NoMissing df cf a) := by unfold NoMissing; infer_instance
instance {df : Frame} {cf : Feat} {pc : Val} : Decidable (Consistent df cf pc) := by unfold Consistent; infer_instance

namespace Demo
/-- Exclusive or: no single condition tells the classes apart. -/
def xor : Frame := Frame.ofTable [fa, fb, fc] [(0, [vx, vx, vp]), (1, [vy, vy, vp]), (2, [vx, vy, vn]), (3, [vy, vx, vn])]
/-- A positive row with a missing value, and a negative row. -/
def holed : Frame := Frame.ofTable [fa, fc] [(0, [.nan, vp]), (1, [vx, vn])]
theorem xor_readsApart : ReadsApart xor fc := by
  refine ⟨by decide +kernel, by decide +kernel, ?_⟩
  intro f hf _ row hr row' hr' _ _ he
  simp only [xor, Frame.ofTable, List.map_cons, List.map_nil, List.mem_cons, List.not_mem_nil, or_false] at hr hr' hf
  have key : ∀ r, (r = row ∨ r = row') → ∃ t, r.cell f = .str t := by
    rintro r (rfl | rfl)
    · rcases hr with rfl | rfl | rfl | rfl <;> rcases hf with rfl | rfl | rfl <;> exact ⟨_, rfl⟩
    · rcases hr' with rfl | rfl | rfl | rfl <;> rcases hf with rfl | rfl | rfl <;> exact ⟨_, rfl⟩
  obtain ⟨t, ht⟩ := key row (Or.inl rfl)
  obtain ⟨u, hu⟩ := key row' (Or.inr rfl)
  rw [ht, hu] at he ⊢
  simp only [Val.text] at he
  exact Or.inl ⟨_, rfl, by rw [he]⟩
end Demo

/-- The hypotheses of C69 hold of exclusive or, where no first condition separates anything, and the model is right. -/
example : Demo.R1.Lawful ∧ Demo.xor.UniqueIndex ∧ ReadsApart Demo.xor Demo.fc ∧ Consistent Demo.xor Demo.fc Demo.vp ∧
    (∀ row ∈ Demo.xor.rows, Positive Demo.fc Demo.vp row → NoMissing Demo.xor Demo.fc row) ∧
    (irepFit 9 Demo.R1 { pruneSize := none } [] Demo.xor Demo.fc Demo.vp (0 : Nat)).map
      (fun m => (m.1.ruleset.rules.map Rule.conds, m.1.ruleset.predict (Demo.xor.dropCol Demo.fc))) =
      .ok ([[⟨Demo.fa, Demo.vx⟩, ⟨Demo.fb, Demo.vx⟩], [⟨Demo.fa, Demo.vy⟩, ⟨Demo.fb, Demo.vy⟩]], .ok [true, true, false, false]) :=
  ⟨Demo.R1_lawful, by unfold Frame.UniqueIndex; decide +kernel, Demo.xor_readsApart, by decide +kernel, by decide +kernel,
    by decide +kernel⟩

/-- The hypothesis on missing values is needed: a positive row whose only value is missing can only be covered by the
empty rule, so the model accepts the negative row as well. -/
theorem C69_refuted_missing_value :
    Consistent Demo.holed Demo.fc Demo.vp ∧ Demo.holed.UniqueIndex ∧
    (irepFit 9 Demo.R0 { pruneSize := none } [] Demo.holed Demo.fc Demo.vp ()).map
      (fun m => (m.1.ruleset.rules.map Rule.conds, m.1.ruleset.predict (Demo.holed.dropCol Demo.fc))) =
      .ok ([[]], .ok [true, true]) :=
  ⟨by decide +kernel, by unfold Frame.UniqueIndex; decide +kernel, by decide +kernel⟩

end Witt
