import Verif.Lemmas.PlainRipper
import Verif.Lemmas.PlainEq
import Verif.Lemmas.PlainSeed
import Verif.Props.Ripper
import Verif.Props.Separate
/-
C70-C75, C36: training with `cn_optimize=False`.
-/
namespace Witt
open Spec

namespace Spec
/-- The condition tests a non-class column for a value that occurs in it, and it holds of an example of each class. -/
def SharedCond (df : Frame) (cf : Feat) (pc : Val) (c : Cond) : Prop :=
  TrainCond df cf c ∧ (∃ row ∈ df.rows, Positive cf pc row ∧ Meets row c) ∧
    ∃ row ∈ df.rows, ¬ Positive cf pc row ∧ Meets row c

/-- No non-class column has a value that occurs in both classes. -/
def NothingShared (df : Frame) (cf : Feat) (pc : Val) : Prop :=
  ∀ f ∈ df.cols, f ≠ cf → ∀ row ∈ df.rows, ∀ row' ∈ df.rows, Positive cf pc row → ¬ Positive cf pc row' →
    ¬ Same (row.cell f) (row'.cell f)
end Spec

namespace Demo
/-- One lawful reading of `set.intersection`: the elements of the first operand that have an equal in the second. -/
def S0 : SetOps := { inter := fun a b => a.filter (fun x => b.any (fun y => x.pyEq y)) }
/-- Another: the elements of the second operand, in reverse order, and NaN if both contain it. -/
def S1 : SetOps := { inter := fun a b => (b.filter (fun y => a.any (fun x => x.pyEq y || (x == .nan && y == .nan)))).reverse }
theorem S0_lawful : S0.Lawful := by
  refine ⟨?_, ?_, ?_, ?_⟩
  · intro a b v h; exact Or.inl (List.mem_filter.mp h).1
  · intro a b v h
    obtain ⟨h1, h2⟩ := List.mem_filter.mp h
    obtain ⟨y, _, hy⟩ := List.any_eq_true.mp h2
    refine ⟨v, h1, ?_⟩
    cases v with
    | nan => simp [Val.pyEq] at hy
    | str s => left; simp [Val.pyEq]
    | num q t => left; simp [Val.pyEq]
  · intro a b v h
    obtain ⟨h1, h2⟩ := List.mem_filter.mp h
    obtain ⟨y, hy, he⟩ := List.any_eq_true.mp h2
    exact ⟨y, hy, Or.inl (by rw [Val.pyEq_symm]; exact he)⟩
  · intro a b x y hx hy he
    refine ⟨x, List.mem_filter.mpr ⟨hx, List.any_eq_true.mpr ⟨y, hy, he⟩⟩, ?_⟩
    exact Val.pyEq_trans he (by rw [Val.pyEq_symm]; exact he)
theorem S1_lawful : S1.Lawful := by
  refine ⟨?_, ?_, ?_, ?_⟩
  · intro a b v h; exact Or.inr (List.mem_filter.mp (List.mem_reverse.mp h)).1
  · intro a b v h
    obtain ⟨h1, h2⟩ := List.mem_filter.mp (List.mem_reverse.mp h)
    obtain ⟨x, hx, he⟩ := List.any_eq_true.mp h2
    refine ⟨x, hx, ?_⟩
    simpa [Val.sameOrNan] using he
  · intro a b v h
    obtain ⟨h1, h2⟩ := List.mem_filter.mp (List.mem_reverse.mp h)
    obtain ⟨x, hx, he⟩ := List.any_eq_true.mp h2
    refine ⟨v, h1, ?_⟩
    cases v with
    | nan => right; exact ⟨rfl, rfl⟩
    | str s => left; simp [Val.pyEq]
    | num q t => left; simp [Val.pyEq]
  · intro a b x y hx hy he
    refine ⟨y, List.mem_reverse.mpr (List.mem_filter.mpr ⟨hy, List.any_eq_true.mpr ⟨x, hx, by simp [he]⟩⟩), ?_⟩
    rw [Val.pyEq_symm]; exact he
end Demo

section
variable {df : Frame} {cf : Feat} {pc : Val} {S : SetOps}

theorem mem_posExamples {row : Row} : row ∈ (posExamples df cf pc).rows ↔ row ∈ df.rows ∧ Positive cf pc row := by
  simp only [posExamples, Frame.dropCol, posRows, Frame.keep, List.mem_filter, Positive, ← Val.pyEq_iff]

theorem mem_negExamples {row : Row} : row ∈ (negExamples df cf pc).rows ↔ row ∈ df.rows ∧ ¬ Positive cf pc row := by
  simp only [negExamples, Frame.dropCol, negRows, Frame.keep, List.mem_filter, Positive, ← Val.pyEq_iff, Bool.not_eq_true',
    Bool.not_eq_true]

theorem mem_examples_cols {f : Feat} : f ∈ (posExamples df cf pc).cols ↔ f ∈ df.cols ∧ f ≠ cf :=
  Frame.mem_dropCol (df := posRows df cf pc)

theorem posExamples_length : (posExamples df cf pc).rows.length ≤ df.rows.length := List.length_filter_le _ _
theorem negExamples_length : (negExamples df cf pc).rows.length ≤ df.rows.length := List.length_filter_le _ _

theorem meets_of_sameOrNan {row : Row} {c : Cond} (h : (row.cell c.feature).sameOrNan c.val) (hc : c.val ≠ .nan) :
    Meets row c := by
  rcases h with h | ⟨_, h⟩
  · exact Val.pyEq_iff.mp h
  · exact absurd h hc

/-- A candidate taken from subsets of the two classes holds of an example of each, unless its value is missing. -/
theorem sharedConds_spec (hS : S.Lawful) {pos neg : Frame} (hp : ∀ row ∈ pos.rows, row ∈ (posExamples df cf pc).rows)
    (hn : ∀ row ∈ neg.rows, row ∈ (negExamples df cf pc).rows) (hc : pos.cols = (posExamples df cf pc).cols)
    {c : Cond} (h : c ∈ sharedConds S pos neg) (hv : c.val ≠ .nan) : SharedCond df cf pc c := by
  unfold sharedConds at h
  obtain ⟨f, hf, h⟩ := List.mem_flatMap.mp h
  obtain ⟨v, hv', rfl⟩ := List.mem_map.mp h
  rw [hc] at hf
  obtain ⟨h1, h2⟩ := mem_examples_cols.mp hf
  obtain ⟨x, hx, hxv⟩ := hS.left _ _ _ hv'
  obtain ⟨y, hy, hyv⟩ := hS.right _ _ _ hv'
  obtain ⟨row, hr, rfl⟩ := mem_unique hx
  obtain ⟨row', hr', rfl⟩ := mem_unique hy
  obtain ⟨a1, a2⟩ := mem_posExamples.mp (hp row hr)
  obtain ⟨b1, b2⟩ := mem_negExamples.mp (hn row' hr')
  refine ⟨⟨h1, h2, ?_⟩, ⟨row, a1, a2, meets_of_sameOrNan hxv hv⟩, ⟨row', b1, b2, meets_of_sameOrNan hyv hv⟩⟩
  rcases hS.mem _ _ _ hv' with h | h
  · obtain ⟨row, hr, he⟩ := mem_unique h
    exact ⟨row, (mem_posExamples.mp (hp row hr)).1, he⟩
  · obtain ⟨row, hr, he⟩ := mem_unique h
    exact ⟨row, (mem_negExamples.mp (hn row hr)).1, he⟩

theorem FrameUseful.val_ne [Arith] {cands : List Cond} {pos neg : Frame} {r : List Cond} {c : Cond}
    (h : FrameUseful cands pos neg r c) : c.val ≠ .nan := by
  intro hn
  obtain ⟨row, _, hm⟩ := h.keeps
  have := condsMet_iff.mp hm c (by simp)
  rcases this with ⟨s, _, h⟩ | ⟨q, t, u, _, h⟩ <;> rw [hn] at h <;> cases h

/-- Rules all of whose conditions are old or shared: closed under growth and pruning. -/
theorem shared_closed [Arith] (hS : S.Lawful) {old : Option (List Cond)} {pos neg : Frame} {Q : Cond → Prop}
    (hQ : ∀ c, SharedCond df cf pc c → Q c) (ho : ∀ c ∈ old.getD [], c.val ≠ .nan → Q c)
    (hp : ∀ row ∈ pos.rows, row ∈ (posExamples df cf pc).rows)
    (hn : ∀ row ∈ neg.rows, row ∈ (negExamples df cf pc).rows) (hc : pos.cols = (posExamples df cf pc).cols) :
    ClosedOn (updatedConds S old pos neg) (fun r => ∀ c ∈ r, Q c) := by
  refine ⟨by simp, ?_, fun r s hr hs c hc => hr c (hs.subset hc)⟩
  intro p n r c hr hu x hx
  rcases List.mem_append.mp hx with hx | hx
  · exact hr x hx
  · simp only [List.mem_singleton] at hx; subst hx
    have hm := hu.mem
    rcases List.mem_append.mp hm with hm | hm
    · exact ho _ hm hu.val_ne
    · exact hQ _ (sharedConds_spec hS hp hn hc hm hu.val_ne)

theorem irepPlain_rules [Arith] {fuel : Nat} {R : PyRandom} {hp : Hyper} {old : Option (List Cond)} {init : List (List Cond)}
    {g g' : R.G} {m : Fitted} (h : irepFitPlain fuel R S hp old init df cf pc g = .ok (m, g')) :
    ∀ r ∈ m.ruleset.rules, r.conds ∈ init ∨
      ∃ s s', FrameReach fuel R (updatedConds S old (posExamples df cf pc) (negExamples df cf pc)) hp
        { rules := init, pos := posExamples df cf pc, neg := negExamples df cf pc, g := g } s ∧
        FrameAdd fuel R (updatedConds S old (posExamples df cf pc) (negExamples df cf pc)) hp s s' r.conds := by
  obtain ⟨_, _, st, hg, hm, _⟩ := irepFitPlain_ok h
  obtain ⟨s, hs, h1, _⟩ := irepGrow_reach hg
  intro r hr
  have : r.conds ∈ m.ruleset.rules.map Rule.conds := List.mem_map.mpr ⟨r, hr, rfl⟩
  rw [hm] at this
  have := (finish_sublist _ _).subset this
  rw [h1] at this
  exact hs.rule _ this

theorem ripperPlain_rules [Arith] [Arith.Lawful] (hS : S.Lawful) {fuel : Nat} {R : PyRandom} {hp : Hyper} {old : Option (List Cond)}
    {init : List (List Cond)} {g g' : R.G} {m : Fitted} (h : ripperFitPlain fuel R S hp old init df cf pc g = .ok (m, g'))
    {Q : Cond → Prop} (hQ : ∀ c, SharedCond df cf pc c → Q c) (ho : ∀ c ∈ old.getD [], c.val ≠ .nan → Q c)
    (hi : ∀ r ∈ init, ∀ c ∈ r, Q c) : ∀ r ∈ m.ruleset.rules, ∀ c ∈ r.conds, Q c := by
  obtain ⟨_, _, rules, hg, hm, _⟩ := ripperFitPlain_ok h
  have := ClosedOn.stages (P := fun r => ∀ c ∈ r, Q c)
    (shared_closed hS hQ ho (fun _ h => h) (fun _ h => h) rfl) (by
      intro p' n' s1 s2 c1 c2 o hoo
      refine shared_closed hS hQ ?_ (fun row hr => s1.subset hr) (fun row hr => s2.subset hr) c1
      rcases hoo with rfl | rfl
      · simp
      · intro c hc hv
        rcases List.mem_append.mp hc with hc | hc
        · exact ho c hc hv
        · exact hQ c (sharedConds_spec hS (fun _ h => h) (fun _ h => h) rfl hc hv)) hg hi
  intro r hr
  have hx : r.conds ∈ m.ruleset.rules.map Rule.conds := List.mem_map.mpr ⟨r, hr, rfl⟩
  rw [hm] at hx
  exact this _ ((finish_sublist _ _).subset hx)
end

/-! ### C70: only values found in both classes are tested -/

/-- C70, IREP. With `cn_optimize=False`, every rule of a fitted model outside the initial ones consists of conditions
that hold of a positive and of a negative training row (or that the initial model lists as possible). -/
theorem C70_irep_conditions_shared [Arith] [Arith.Lawful] (R : PyRandom) (S : SetOps) (hS : S.Lawful) (hp : Hyper) (old : Option (List Cond))
    (init : List (List Cond)) (df : Frame) (cf : Feat) (pc : Val) (fuel : Nat) (g g' : R.G) (m : Fitted)
    (h : irepFitPlain fuel R S hp old init df cf pc g = .ok (m, g')) :
    ∀ r ∈ m.ruleset.rules, r.conds ∈ init ∨ ∀ c ∈ r.conds, c ∈ old.getD [] ∨ SharedCond df cf pc c := by
  intro r hr
  rcases irepPlain_rules h r hr with h | ⟨s, s', _, ha⟩
  · exact Or.inl h
  · right
    obtain ⟨a, b, r', h1, h2⟩ := ha.grown
    have hcl := shared_closed (df := df) (cf := cf) (pc := pc) (S := S) (old := old)
      (pos := posExamples df cf pc) (neg := negExamples df cf pc) (Q := fun c => c ∈ old.getD [] ∨ SharedCond df cf pc c) hS
      (fun c h => Or.inr h) (fun c h _ => Or.inl h) (fun _ h => h) (fun _ h => h) rfl
    exact hcl.pre _ _ (hcl.grow hcl.nil h1) h2

/-- C70, RIPPER. With `cn_optimize=False`, every condition of a fitted model comes from the initial model (its rules or
its list of possible conditions) or holds of a positive and of a negative training row. -/
theorem C70_ripper_conditions_shared [Arith] [Arith.Lawful] (R : PyRandom) (S : SetOps) (hS : S.Lawful) (hp : Hyper) (old : Option (List Cond))
    (init : List (List Cond)) (df : Frame) (cf : Feat) (pc : Val) (fuel : Nat) (g g' : R.G) (m : Fitted)
    (h : ripperFitPlain fuel R S hp old init df cf pc g = .ok (m, g')) :
    ∀ r ∈ m.ruleset.rules, ∀ c ∈ r.conds, (∃ r0 ∈ init, c ∈ r0) ∨ c ∈ old.getD [] ∨ SharedCond df cf pc c :=
  ripperPlain_rules hS h (fun _ h => Or.inr (Or.inr h)) (fun _ h _ => Or.inr (Or.inl h))
    (fun r hr _ hc => Or.inl ⟨r, hr, hc⟩)

theorem SharedCond.absurd {df : Frame} {cf : Feat} {pc : Val} (hno : NothingShared df cf pc) {c : Cond}
    (h : SharedCond df cf pc c) : False := by
  obtain ⟨⟨h1, h2, _⟩, ⟨row, r1, r2, r3⟩, ⟨row', s1, s2, s3⟩⟩ := h
  refine hno _ h1 h2 row r1 row' s1 r2 s2 ?_
  unfold Meets at r3 s3
  rw [← Val.pyEq_iff] at *
  exact Val.pyEq_trans r3 (by rw [Val.pyEq_symm]; exact s3)

theorem nothing_closed [Arith] {df : Frame} {cf : Feat} {pc : Val} {S : SetOps} (hS : S.Lawful) (hno : NothingShared df cf pc)
    {old : Option (List Cond)} {pos neg : Frame} (ho : ∀ c ∈ old.getD [], c.val = .nan)
    (hp : ∀ row ∈ pos.rows, row ∈ (posExamples df cf pc).rows)
    (hn : ∀ row ∈ neg.rows, row ∈ (negExamples df cf pc).rows) (hc : pos.cols = (posExamples df cf pc).cols) :
    ClosedOn (updatedConds S old pos neg) (fun r => r = []) := by
  have hcl := shared_closed (Q := fun _ => False) (S := S) (old := old) hS (fun c h => SharedCond.absurd hno h)
    (fun c h1 h2 => h2 (ho c h1)) hp hn hc
  have key : ∀ r : List Cond, r = [] ↔ ∀ c ∈ r, False := by
    intro r; rw [List.eq_nil_iff_forall_not_mem]
  refine ⟨rfl, ?_, ?_⟩
  · intro p n r c hr hu; rw [key] at hr ⊢; exact hcl.snoc p n r c hr hu
  · intro r s hr hs; rw [key] at hr ⊢; exact hcl.pre r s hr hs

/-- C70, IREP. If the classes share no value in any column (every single value tells them apart), then, without an
initial model, `cn_optimize=False` learns at most one rule, and that rule is empty. -/
theorem C70_irep_nothing_shared [Arith] [Arith.Lawful] (R : PyRandom) (S : SetOps) (hS : S.Lawful) (hp : Hyper) (df : Frame) (cf : Feat) (pc : Val)
    (hno : NothingShared df cf pc) (fuel : Nat) (g g' : R.G) (m : Fitted)
    (h : irepFitPlain fuel R S hp none [] df cf pc g = .ok (m, g')) :
    m.ruleset.rules.map Rule.conds = [] ∨ m.ruleset.rules.map Rule.conds = [[]] := by
  obtain ⟨_, _, st, hg, hm, _⟩ := irepFitPlain_ok h
  have hcl := nothing_closed (df := df) (cf := cf) (pc := pc) (S := S) (old := none) (pos := posExamples df cf pc)
    (neg := negExamples df cf pc) hS hno (by simp) (fun _ h => h) (fun _ h => h) rfl
  have hall := hcl.irepGrow hg (by simp)
  have hall' : ∀ r ∈ finish hp.lim.maxTotalConds st.rules, r = [] := fun r hr => hall r ((finish_sublist _ _).subset hr)
  have hpw := finish_pairwise hp.lim.maxTotalConds st.rules
  rw [hm]
  generalize finish hp.lim.maxTotalConds st.rules = l at hall' hpw
  match l with
  | [] => exact Or.inl rfl
  | [a] => right; rw [hall' a (by simp)]
  | a :: b :: l =>
    exfalso
    have ha := hall' a (by simp)
    have hb := hall' b (by simp)
    subst ha hb
    have := (List.pairwise_cons.mp hpw).1 [] (by simp)
    have h2 : condsSameKey [] [] = true := condsSameKey_iff.mpr (List.Perm.refl _)
    rw [h2] at this
    cases this

/-- C70, IREP, consequence: without pruning and limits, a model fitted with `cn_optimize=False` on data whose classes
share no value (and that has a positive row) predicts True for every row of every frame. -/
theorem C70_irep_predicts_all_true [Arith] [Arith.Lawful] (R : PyRandom) (S : SetOps) (hS : S.Lawful) (hp : Hyper) (hprune : hp.irepPrune = 0)
    (hl : hp.lim.maxRules = none ∧ hp.lim.maxTotalConds = none ∧ hp.lim.minRulesetSamples = none)
    (df : Frame) (cf : Feat) (pc : Val) (hpos : ∃ row ∈ df.rows, Positive cf pc row)
    (hno : NothingShared df cf pc) (fuel : Nat) (g g' : R.G) (m : Fitted)
    (h : irepFitPlain fuel R S hp none [] df cf pc g = .ok (m, g')) (X : Frame) (hX : X.UniqueIndex) :
    m.ruleset.rules.map Rule.conds = [[]] ∧ m.ruleset.predict X = .ok (X.rows.map (fun _ => true)) := by
  have hrules : m.ruleset.rules.map Rule.conds = [[]] := by
    rcases C70_irep_nothing_shared R S hS hp df cf pc hno fuel g g' m h with h0 | h0
    · exfalso
      obtain ⟨_, _, st, hg, hm, _⟩ := irepFitPlain_ok h
      obtain ⟨s, hs, h1, h2, _, hstop⟩ := irepGrow_reach hg
      have hse : s.pos.rows = [] := by
        rcases hstop with h | h | h
        · exact h
        · unfold stopEarly at h
          rw [hl.1, hl.2.1, hl.2.2] at h
          simp [atLeast, below] at h
        · exact absurd hprune h
      obtain ⟨row, hrow, hp'⟩ := hpos
      rcases hs.complete row (mem_posExamples.mpr ⟨hrow, hp'⟩) with h | ⟨r, hr, _⟩
      · rw [hse] at h; simp at h
      · have hfin : m.ruleset.rules.map Rule.conds = removeDups condsSameKey st.rules := by
          rw [hm]; unfold finish; rw [hl.2.1]; rfl
        rw [← h1] at hr
        have hrep := removeDups_rep (same := condsSameKey) st.rules hr
        rw [← hfin, h0] at hrep
        simp at hrep
    · exact h0
  refine ⟨hrules, ?_⟩
  have hconds : ∀ r ∈ m.ruleset.rules, r.conds = [] := by
    intro r hr
    have : r.conds ∈ m.ruleset.rules.map Rule.conds := List.mem_map.mpr ⟨r, hr, rfl⟩
    rw [hrules] at this
    simpa using this
  have hf : HasFeatures X m.ruleset.rules := by
    intro r hr c hc
    rw [hconds r hr] at hc; simp at hc
  rw [Ruleset.predict_unique hX (Or.inr hf)]
  congr 1
  apply List.map_congr_left
  intro row _
  rw [rulesMet_iff]
  have hne : m.ruleset.rules ≠ [] := by rintro h; rw [h] at hrules; simp at hrules
  obtain ⟨r, hr⟩ := List.exists_mem_of_ne_nil _ hne
  exact ⟨r, hr, by intro c hc; rw [hconds r hr] at hc; simp at hc⟩

/-- C70, RIPPER. If the classes share no value in any column then, without an initial model, `cn_optimize=False` learns
no rule at all. -/
theorem C70_ripper_nothing_shared [Arith] [Arith.Lawful] (R : PyRandom) (S : SetOps) (hS : S.Lawful) (hp : Hyper) (df : Frame) (cf : Feat) (pc : Val)
    (hno : NothingShared df cf pc) (fuel : Nat) (g g' : R.G) (m : Fitted)
    (h : ripperFitPlain fuel R S hp none [] df cf pc g = .ok (m, g')) : m.ruleset.rules = [] := by
  obtain ⟨_, _, rules, hg, hm, _⟩ := ripperFitPlain_ok h
  obtain ⟨st, r2, r3, c3, g2, dl, hs⟩ := ripperStagesDf_ok hg
  have hgrow : ∀ (cands : List Cond), ClosedOn cands (fun r => r = []) → ∀ (pos neg : Frame) (g : R.G) (st : FrameRipSt R),
      ripperGrow fuel R cands hp [] pos neg g = .ok st → st.rules = [] := by
    intro cands hcl pos neg g st hst
    obtain ⟨s, hs, he, _⟩ := ripperGrow_reach hst
    rw [he]
    cases hs with
    | start => rfl
    | add _ ha =>
      exfalso
      obtain ⟨ps, a, b, c, d, g1, grown, _, _, _, _, h1, h2, _⟩ := ha.how
      exact h2 (hcl.grow hcl.nil h1)
  have hcl1 := nothing_closed (df := df) (cf := cf) (pc := pc) (S := S) (old := none) (pos := posExamples df cf pc)
    (neg := negExamples df cf pc) hS hno (by simp) (fun _ h => h) (fun _ h => h) rfl
  have h1 : st.rules = [] := hgrow _ hcl1 _ _ _ _ hs.grow
  have h2 : r2 = [] := stage2Df_spec (P := fun rules => rules = [])
    (fun rules out g g' hr ho => by
      obtain ⟨_, _, _, hl, _⟩ := optimizeDf_spec ho
      rw [hr] at hl
      exact List.length_eq_zero_iff.mp (by simpa using hl)) _ _ _ _ _ h1 hs.optimize
  have h3 : r3 = [] := by
    rcases coverRemainingDf_ok hs.cover with ⟨rfl, _⟩ | ⟨p', n', st', a1, a2, a3, a4, rfl, hst, rfl⟩
    · exact h2
    · subst h2
      refine hgrow _ ?_ _ _ _ _ hst
      exact nothing_closed hS hno (by simp) (fun row hr => a1.subset hr) (fun row hr => a2.subset hr) a3
  have h4 := (bestSubsetDf_sublist hs.simplify).length_le
  rw [h3] at h4
  have h5 := (finish_sublist hp.lim.maxTotalConds rules).length_le
  rw [← hm, List.length_map] at h5
  exact List.length_eq_zero_iff.mp (by simp only [List.length_nil] at h4; omega)

namespace Demo
/-- The value of column `a` tells the classes apart. -/
def apart : Frame := Frame.ofTable [fa, fc] [(0, [vx, vp]), (1, [vy, vn]), (2, [vx, vp]), (3, [vy, vn])]
end Demo

instance (df : Frame) (cf : Feat) (pc : Val) : Decidable (NothingShared df cf pc) :=
  inferInstanceAs (Decidable (∀ f ∈ df.cols, f ≠ cf → ∀ row ∈ df.rows, ∀ row' ∈ df.rows, Positive cf pc row →
    ¬ Positive cf pc row' → ¬ Same (row.cell f) (row'.cell f)))

/-- The hypotheses are met: a column that tells the classes apart is useless to `cn_optimize=False`, while the default
learns the rule. -/
example : NothingShared Demo.apart Demo.fc Demo.vp ∧ Demo.S0.Lawful ∧
    (irepFitPlain 9 Demo.R0 Demo.S0 { pruneSize := none } none [] Demo.apart Demo.fc Demo.vp ()).map
      (fun m => m.1.ruleset.rules.map Rule.conds) = .ok [[]] ∧
    (ripperFitPlain 9 Demo.R0 Demo.S0 { pruneSize := some (1 / 2) } none [] Demo.apart Demo.fc Demo.vp ()).map
      (fun m => m.1.ruleset.rules.map Rule.conds) = .ok [] ∧
    (ripperFit 9 Demo.R0 { pruneSize := some (1 / 2) } [] Demo.apart Demo.fc Demo.vp ()).map
      (fun m => m.1.ruleset.rules.map Rule.conds) = .ok [[⟨Demo.fa, Demo.vx⟩]] :=
  ⟨by decide +kernel, Demo.S0_lawful, by decide +kernel, by decide +kernel, by decide +kernel⟩

/-- On `fit1` the values of `b` are shared and those of `a` are not, so only `b` is tested. -/
example : (irepFitPlain 19 Demo.R0 Demo.S1 { pruneSize := none } none [] Demo.fit1 Demo.fc Demo.vp ()).map
      (fun m => m.1.ruleset.rules.map Rule.conds) = .ok [[⟨Demo.fb, Demo.vx⟩], [⟨Demo.fb, Demo.vy⟩]] ∧
    (ripperFitPlain 19 Demo.R0 Demo.S1 { pruneSize := some (1 / 2) } none [] Demo.fit1 Demo.fc Demo.vp ()).map
      (fun m => m.1.ruleset.rules.map Rule.conds) = .ok [[⟨Demo.fb, Demo.vy⟩]] := by decide +kernel

/-! ### C71: what `cn_optimize` changes -/

theorem labelSet_of_nodup {l : List Label} (h : l.Nodup) : labelSet l = l := by
  unfold labelSet
  induction l with
  | nil => rfl
  | cons a l ih =>
    obtain ⟨h1, h2⟩ := List.nodup_cons.mp h
    rw [List.eraseDups_cons]
    have : l.filter (fun b => !b == a) = l := by
      rw [List.filter_eq_self]
      intro b hb
      have : b ≠ a := fun e => h1 (e ▸ hb)
      simpa using this
    rw [this, ih h2]

/-- C71, IREP. On distinct row labels, if every value of every non-class column occurs in both classes (and Python
enumerates the shared values in order of appearance), `cn_optimize` makes no difference at all: same model, same
probabilities, same exceptions, same state of the random generator, whatever the hyperparameters, initial model and shuffles. -/
theorem C71_irep_same_model [Arith] [Arith.Lawful] (R : PyRandom) (hR : R.Lawful) (S : SetOps) (hp : Hyper) (init : List (List Cond)) (df : Frame)
    (cf : Feat) (pc : Val) (hu : df.UniqueIndex)
    (hall : ∀ f ∈ df.cols, f ≠ cf → S.inter ((posExamples df cf pc).unique f) ((negExamples df cf pc).unique f) = df.unique f)
    (fuel : Nat) (g : R.G) :
    irepFitPlain fuel R S hp none init df cf pc g = irepFit fuel R hp init df cf pc g := by
  unfold irepFitPlain irepFit
  split
  · rfl
  split
  · rfl
  rename_i hcf
  obtain ⟨cn, hb⟩ : ∃ cn, CatNap.build df cf = .ok cn := ⟨_, CatNap.build_ok (by simpa using hcf)⟩
  have hconds : updatedConds S none (posExamples df cf pc) (negExamples df cf pc) = cn.conds := by
    rw [CatNap.build_conds hb]
    unfold updatedConds sharedConds possibleConds
    simp only [Option.getD_none, List.nil_append]
    have : (posExamples df cf pc).cols = (df.dropCol cf).cols := rfl
    rw [this]
    apply List.flatMap_congr
    intro f hf
    obtain ⟨h1, h2⟩ := Frame.mem_dropCol.mp hf
    rw [hall f h1 h2]
    rfl
  have hwith : cn.withConds cn.conds = cn := rfl
  have hpu : (posExamples df cf pc).UniqueIndex := by
    unfold Frame.UniqueIndex Frame.index at *
    exact hu.sublist ((List.filter_sublist).map _)
  have hnu : (negExamples df cf pc).UniqueIndex := by
    unfold Frame.UniqueIndex Frame.index at *
    exact hu.sublist ((List.filter_sublist).map _)
  have hsp : SameData df cf (posExamples df cf pc) :=
    ⟨fun row h => (mem_posExamples.mp h).1, fun f h1 h2 => mem_examples_cols.mpr ⟨h1, h2⟩⟩
  have hsn : SameData df cf (negExamples df cf pc) :=
    ⟨fun row h => (mem_negExamples.mp h).1, fun f h1 h2 => mem_examples_cols (pc := pc).mpr ⟨h1, h2⟩⟩
  have hov : OverCols df cf cn.conds := by
    intro c hc
    rw [CatNap.build_conds hb] at hc
    exact Frame.mem_dropCol.mp (mem_possibleConds.mp hc).1
  have heq := irepGrow_cands hR hb hu hov fuel hp init (posExamples df cf pc) (negExamples df cf pc) g ⟨hsp, hsn, hpu, hnu⟩
  rw [hwith] at heq
  have e1 : labelSet (posRows df cf pc).index = (posExamples df cf pc).index := labelSet_of_nodup hpu
  have e2 : labelSet (negRows df cf pc).index = (negExamples df cf pc).index := labelSet_of_nodup hnu
  simp only [hconds, hb, ok_bind, e1, e2, ← heq]
  cases irepGrow fuel R cn.conds hp init (posExamples df cf pc) (negExamples df cf pc) g with
  | error e => rfl
  | ok st => rfl

/-- C71, IREP. More generally, on distinct row labels and whatever is shared, `cn_optimize=False` grows the same rules, on
the same shuffles and with the same exceptions, as the index does when told to consider only the shared conditions. -/
theorem C71_irep_same_growth [Arith] [Arith.Lawful] (R : PyRandom) (hR : R.Lawful) (S : SetOps) (hp : Hyper) (init : List (List Cond)) (df : Frame)
    (cf : Feat) (pc : Val) (hu : df.UniqueIndex) (cn : CatNap) (hb : CatNap.build df cf = .ok cn) (fuel : Nat) (g : R.G) :
    (irepGrow fuel R (sharedConds S (posExamples df cf pc) (negExamples df cf pc)) hp init (posExamples df cf pc)
        (negExamples df cf pc) g).map (fun s => (s.rules, s.pos.index, s.neg.index, s.g)) =
      (irepGrowCn fuel R { cn with conds := sharedConds S (posExamples df cf pc) (negExamples df cf pc) } hp init
        (posRows df cf pc).index (negRows df cf pc).index g).map (fun s => (s.rules, s.pos, s.neg, s.g)) := by
  have hpu : (posExamples df cf pc).UniqueIndex := by
    unfold Frame.UniqueIndex Frame.index at *
    exact hu.sublist ((List.filter_sublist).map _)
  have hnu : (negExamples df cf pc).UniqueIndex := by
    unfold Frame.UniqueIndex Frame.index at *
    exact hu.sublist ((List.filter_sublist).map _)
  have hsp : SameData df cf (posExamples df cf pc) :=
    ⟨fun row h => (mem_posExamples.mp h).1, fun f h1 h2 => mem_examples_cols.mpr ⟨h1, h2⟩⟩
  have hsn : SameData df cf (negExamples df cf pc) :=
    ⟨fun row h => (mem_negExamples.mp h).1, fun f h1 h2 => mem_examples_cols (pc := pc).mpr ⟨h1, h2⟩⟩
  have hov : OverCols df cf (sharedConds S (posExamples df cf pc) (negExamples df cf pc)) := by
    intro c hc
    unfold sharedConds at hc
    obtain ⟨f, hf, h⟩ := List.mem_flatMap.mp hc
    obtain ⟨v, _, rfl⟩ := List.mem_map.mp h
    exact mem_examples_cols.mp hf
  have heq := irepGrow_cands hR hb hu hov fuel hp init (posExamples df cf pc) (negExamples df cf pc) g ⟨hsp, hsn, hpu, hnu⟩
  have e1 : (posRows df cf pc).index = (posExamples df cf pc).index := rfl
  have e2 : (negRows df cf pc).index = (negExamples df cf pc).index := rfl
  have e3 : ({ cn with conds := sharedConds S (posExamples df cf pc) (negExamples df cf pc) } : CatNap) =
    cn.withConds (sharedConds S (posExamples df cf pc) (negExamples df cf pc)) := rfl
  rw [e1, e2, e3, ← heq]
  cases irepGrow fuel R (sharedConds S (posExamples df cf pc) (negExamples df cf pc)) hp init (posExamples df cf pc)
    (negExamples df cf pc) g <;> rfl

/-- The hypotheses are met: `xor`, where every value occurs in both classes. -/
example : Demo.xor.UniqueIndex ∧ Demo.R0.Lawful ∧
    (∀ f ∈ Demo.xor.cols, f ≠ Demo.fc → Demo.S0.inter ((posExamples Demo.xor Demo.fc Demo.vp).unique f)
      ((negExamples Demo.xor Demo.fc Demo.vp).unique f) = Demo.xor.unique f) ∧
    (irepFitPlain 9 Demo.R0 Demo.S0 { pruneSize := none } none [] Demo.xor Demo.fc Demo.vp ()).map
      (fun m => m.1.ruleset.rules.map (fun r => r.conds.length)) =
    (irepFit 9 Demo.R0 { pruneSize := none } [] Demo.xor Demo.fc Demo.vp ()).map
      (fun m => m.1.ruleset.rules.map (fun r => r.conds.length)) :=
  ⟨by unfold Frame.UniqueIndex; decide +kernel, Demo.R0_lawful, by decide +kernel, by decide +kernel⟩

/-- C71 is false in general: documented as an optimisation of speed, `cn_optimize` changes the model. On `fit1` (distinct
labels, text values, nothing missing) the default learns `[[a=x]]` and `cn_optimize=False` no rule with pruning, other rules
without it; and RIPPER succeeds with it and raises ZeroDivisionError without. -/
theorem C71_refuted_switch :
    Demo.fit1.UniqueIndex ∧ Demo.conj.UniqueIndex ∧
    (irepFit 19 Demo.R0 { pruneSize := some (1 / 2) } [] Demo.fit1 Demo.fc Demo.vp ()).map
      (fun m => m.1.ruleset.rules.map Rule.conds) = .ok [[⟨Demo.fa, Demo.vx⟩]] ∧
    (irepFitPlain 19 Demo.R0 Demo.S0 { pruneSize := some (1 / 2) } none [] Demo.fit1 Demo.fc Demo.vp ()).map
      (fun m => m.1.ruleset.rules.map Rule.conds) = .ok [] ∧
    (irepFit 19 Demo.R0 { pruneSize := none } [] Demo.fit1 Demo.fc Demo.vp ()).map
      (fun m => m.1.ruleset.rules.map Rule.conds) = .ok [[⟨Demo.fa, Demo.vx⟩]] ∧
    (irepFitPlain 19 Demo.R0 Demo.S0 { pruneSize := none } none [] Demo.fit1 Demo.fc Demo.vp ()).map
      (fun m => m.1.ruleset.rules.map Rule.conds) = .ok [[⟨Demo.fb, Demo.vx⟩], [⟨Demo.fb, Demo.vy⟩]] ∧
    (ripperFit 19 Demo.R0 { pruneSize := some (1 / 2) } [] Demo.conj Demo.fc Demo.vp ()).map
      (fun m => m.1.ruleset.rules.map Rule.conds) = .ok [[⟨Demo.fa, Demo.vx⟩, ⟨Demo.fb, Demo.vx⟩]] ∧
    (ripperFitPlain 19 Demo.R0 Demo.S0 { pruneSize := some (1 / 2) } none [] Demo.conj Demo.fc Demo.vp ()).map
      (fun m => m.1.ruleset.rules.map Rule.conds) = .error .zeroDivision := by
  exact ⟨by unfold Frame.UniqueIndex; decide +kernel, by unfold Frame.UniqueIndex; decide +kernel, by decide +kernel⟩

/-! ### C72: training comes back -/

/-- C72, IREP. With `cn_optimize=False` training halts: for every dataset (repeated labels included), generator, set
iteration order, hyperparameters and initial model there is one outcome, not a divergence, which every run with more
iterations allowed than there are training rows reaches. -/
theorem C72_irep_plain_terminates [Arith] [Arith.Lawful] (R : PyRandom) (hR : R.Lawful) (S : SetOps) (hp : Hyper) (old : Option (List Cond))
    (init : List (List Cond)) (df : Frame) (cf : Feat) (pc : Val) (g : R.G) :
    ∃ outcome, outcome ≠ .error .diverged ∧
      (∀ fuel, df.rows.length < fuel → irepFitPlain fuel R S hp old init df cf pc g = outcome) := by
  have h1 := posExamples_length (df := df) (cf := cf) (pc := pc)
  have h2 := negExamples_length (df := df) (cf := cf) (pc := pc)
  refine ⟨irepFitPlain (df.rows.length + 1) R S hp old init df cf pc g, ?_, ?_⟩
  · show NoDiv _
    unfold irepFitPlain
    split
    · simp [NoDiv]
    split
    · simp [NoDiv]
    refine (irepGrow_noDiv hR ⟨by omega, by omega⟩).bind fun st _ => ?_
    refine NoDiv.bind ?_ fun _ _ => .pure _
    generalize hrs : ({ rules := st.rules.map (fun c => ({ conds := c } : Rule)), possible := some (updatedConds S old (posExamples df cf pc) (negExamples df cf pc)) } : Ruleset) = rs
    simp only
    rcases hr : recalibrate rs df cf pc hp.alpha with ⟨rs', o⟩
    cases o with
    | none => exact .ok _
    | some e =>
      simp only [raiseIf, NoDiv, ne_eq, Except.error.injEq]
      exact recalibrate_err (by rw [hr])
  · intro fuel hf
    unfold irepFitPlain
    split
    · rfl
    split
    · rfl
    simp only
    rw [irepGrow_fuel (f' := df.rows.length + 1) hR ⟨by omega, by omega⟩ ⟨by omega, by omega⟩]

/-- C72, IREP. The model has at most one rule per initial rule and positive training row. -/
theorem C72_irep_plain_rule_count [Arith] [Arith.Lawful] (R : PyRandom) (hR : R.Lawful) (S : SetOps) (hp : Hyper) (old : Option (List Cond))
    (init : List (List Cond)) (df : Frame) (cf : Feat) (pc : Val) (fuel : Nat) (g g' : R.G) (m : Fitted)
    (h : irepFitPlain fuel R S hp old init df cf pc g = .ok (m, g')) :
    m.ruleset.rules.length ≤ init.length + (posRows df cf pc).rows.length := by
  obtain ⟨_, _, st, hg, hm, _⟩ := irepFitPlain_ok h
  obtain ⟨s, hs, h1, _⟩ := irepGrow_reach hg
  have hc := hs.count hR
  have hl := (finish_sublist hp.lim.maxTotalConds st.rules).length_le
  rw [← hm, List.length_map, h1] at hl
  have : (posExamples df cf pc).rows.length = (posRows df cf pc).rows.length := rfl
  simp only at hc
  omega

/-- C72, RIPPER. Likewise; no law of the generator is needed. -/
theorem C72_ripper_plain_terminates [Arith] [Arith.Lawful] (R : PyRandom) (S : SetOps) (hp : Hyper) (old : Option (List Cond))
    (init : List (List Cond)) (df : Frame) (cf : Feat) (pc : Val) (g : R.G) :
    ∃ outcome, outcome ≠ .error .diverged ∧
      (∀ fuel, df.rows.length < fuel → ripperFitPlain fuel R S hp old init df cf pc g = outcome) := by
  have h1 := posExamples_length (df := df) (cf := cf) (pc := pc)
  have h2 := negExamples_length (df := df) (cf := cf) (pc := pc)
  refine ⟨ripperFitPlain (df.rows.length + 1) R S hp old init df cf pc g, ?_, ?_⟩
  · show NoDiv _
    unfold ripperFitPlain
    split
    · simp [NoDiv]
    split
    · simp [NoDiv]
    refine (ripperStagesDf_noDiv ⟨by omega, by omega⟩).bind fun st _ => ?_
    refine NoDiv.bind ?_ fun _ _ => .pure _
    simp only
    generalize hrs : Ruleset.trimConds _ hp.lim.maxTotalConds = rs
    rcases hr : recalibrate rs df cf pc hp.alpha with ⟨rs', o⟩
    cases o with
    | none => exact .ok _
    | some e =>
      simp only [raiseIf, NoDiv, ne_eq, Except.error.injEq]
      exact recalibrate_err (by rw [hr])
  · intro fuel hf
    unfold ripperFitPlain
    split
    · rfl
    split
    · rfl
    rw [ripperStagesDf_fuel (f' := df.rows.length + 1) ⟨by omega, by omega⟩ ⟨by omega, by omega⟩]

/-! ### C73: the limits, and the shape of the result -/

/-- C73, IREP. With `cn_optimize=False` the limits hold as well: at most `max_rules` rules (or as many as the initial model
has), at most `max_total_conds` conditions, at most `max_rule_conds` in each learned rule; and no two rules print alike. -/
theorem C73_irep_plain_limits [Arith] [Arith.Lawful] (R : PyRandom) (S : SetOps) (hp : Hyper) (old : Option (List Cond))
    (init : List (List Cond)) (df : Frame) (cf : Feat) (pc : Val) (fuel : Nat) (g g' : R.G) (m : Fitted)
    (h : irepFitPlain fuel R S hp old init df cf pc g = .ok (m, g')) :
    (∀ k, hp.lim.maxRules = some k → (m.ruleset.rules.length : Int) ≤ max k init.length) ∧
    (∀ k, hp.lim.maxTotalConds = some k →
      (((m.ruleset.rules.map (fun r => r.conds.length)).sum : Nat) : Int) ≤ max k 0) ∧
    (∀ k, hp.lim.maxRuleConds = some k → 0 ≤ k → ∀ r ∈ m.ruleset.rules, r.conds ∈ init ∨ (r.conds.length : Int) ≤ k) ∧
    m.ruleset.rules.Pairwise (fun r s => ¬ (r.conds.map Cond.text).Perm (s.conds.map Cond.text)) := by
  obtain ⟨_, _, st, hg, hm, _⟩ := irepFitPlain_ok h
  obtain ⟨s, hs, h1, _⟩ := irepGrow_reach hg
  refine ⟨fun k hk => ?_, fun k hk => ?_, fun k hk hk0 r hr => ?_, ?_⟩
  · have hl := (finish_sublist hp.lim.maxTotalConds st.rules).length_le
    rw [← hm, List.length_map, h1] at hl
    have := hs.maxRules hk
    simp only at this
    omega
  · have := finish_count k st.rules
    rw [← hk, ← hm] at this
    unfold countConds at this
    rw [List.map_map] at this
    exact this
  · rcases irepPlain_rules h r hr with h | ⟨s, s', _, ha⟩
    · exact Or.inl h
    · right
      obtain ⟨a, b, r0, h1, h2⟩ := ha.grown
      have := (growRule_post h1).len k hk
      have := h2.length_le
      simp only [List.length_nil] at *
      omega
  · have := finish_pairwise hp.lim.maxTotalConds st.rules
    rw [← hm, List.pairwise_map] at this
    refine this.imp ?_
    intro r s hrs hp
    have : condsSameKey r.conds s.conds = true := condsSameKey_iff.mpr hp
    rw [hrs] at this
    cases this

/-- C73, RIPPER: `max_rules`, `max_total_conds` and no duplicates. (`max_rule_conds` fails as with the index, C22.) -/
theorem C73_ripper_plain_limits [Arith] (R : PyRandom) (S : SetOps) (hp : Hyper) (old : Option (List Cond))
    (init : List (List Cond)) (df : Frame) (cf : Feat) (pc : Val) (fuel : Nat) (g g' : R.G) (m : Fitted)
    (h : ripperFitPlain fuel R S hp old init df cf pc g = .ok (m, g')) :
    (∀ k, hp.lim.maxRules = some k → (m.ruleset.rules.length : Int) ≤ max k init.length) ∧
    (∀ k, hp.lim.maxTotalConds = some k →
      (((m.ruleset.rules.map (fun r => r.conds.length)).sum : Nat) : Int) ≤ max k 0) ∧
    m.ruleset.rules.Pairwise (fun r s => ¬ (r.conds.map Cond.text).Perm (s.conds.map Cond.text)) := by
  obtain ⟨_, _, rules, hg, hm, _⟩ := ripperFitPlain_ok h
  refine ⟨fun k hk => ?_, fun k hk => ?_, ?_⟩
  · have hl := (finish_sublist hp.lim.maxTotalConds rules).length_le
    rw [← hm, List.length_map] at hl
    have := ripperStagesDf_maxRules hg hk
    omega
  · have := finish_count k rules
    rw [← hk, ← hm] at this
    unfold countConds at this
    rw [List.map_map] at this
    exact this
  · have := finish_pairwise hp.lim.maxTotalConds rules
    rw [← hm, List.pairwise_map] at this
    refine this.imp ?_
    intro r s hrs hp
    have : condsSameKey r.conds s.conds = true := condsSameKey_iff.mpr hp
    rw [hrs] at this
    cases this

/-- C73, IREP. Without pruning, `max_rules`, `max_total_conds` and `min_ruleset_samples`, the model fitted with
`cn_optimize=False` predicts True for every positive training row, on distinct labels and data in which nothing prints
like something else. -/
theorem C73_irep_plain_covers_positives [Arith] [Arith.Lawful] (R : PyRandom) (S : SetOps) (hS : S.Lawful) (hp : Hyper) (hprune : hp.irepPrune = 0)
    (hl : hp.lim.maxRules = none ∧ hp.lim.maxTotalConds = none ∧ hp.lim.minRulesetSamples = none)
    (df : Frame) (cf : Feat) (pc : Val) (hu : df.UniqueIndex)
    (hr : ReadsApart df cf) (fuel : Nat) (g g' : R.G) (m : Fitted)
    (h : irepFitPlain fuel R S hp none [] df cf pc g = .ok (m, g')) :
    ∃ p : Row → Bool, m.ruleset.predict (df.dropCol cf) = .ok (df.rows.map p) ∧
      ∀ row ∈ df.rows, Positive cf pc row → p row = true := by
  have htext : PrintsApart (fun c => SharedCond df cf pc c) := by
    intro c d hc hd
    exact hr.printsApart c d ⟨hc.1, hc.1.1, hc.1.2.1, hc.2.1.imp fun _ h => ⟨h.1, h.2.2⟩⟩
      ⟨hd.1, hd.1.1, hd.1.2.1, hd.2.1.imp fun _ h => ⟨h.1, h.2.2⟩⟩
  obtain ⟨_, _, st, hg, hm, _⟩ := irepFitPlain_ok h
  obtain ⟨s, hs, h1, h2, _, hstop⟩ := irepGrow_reach hg
  have hcl := shared_closed (df := df) (cf := cf) (pc := pc) (S := S) (old := none)
    (pos := posExamples df cf pc) (neg := negExamples df cf pc) (Q := fun c => SharedCond df cf pc c) hS
    (fun c h => h) (by simp) (fun _ h => h) (fun _ h => h) rfl
  have hcond := hcl.irepGrow hg (by simp)
  have hsubl : ∀ r ∈ m.ruleset.rules, r.conds ∈ st.rules := by
    intro r hr
    have : r.conds ∈ m.ruleset.rules.map Rule.conds := List.mem_map.mpr ⟨r, hr, rfl⟩
    rw [hm] at this
    exact (finish_sublist _ _).subset this
  have hfeat : HasFeatures (df.dropCol cf) m.ruleset.rules := by
    intro r hr c hc
    have := hcond _ (hsubl r hr) c hc
    exact Frame.mem_dropCol.mpr ⟨this.1.1, this.1.2.1⟩
  refine ⟨rulesMet m.ruleset.rules, Ruleset.predict_unique (df := df.dropCol cf) hu (Or.inr hfeat), ?_⟩
  intro row hrow hpos
  rw [rulesMet_iff]
  have hse : s.pos.rows = [] := by
    rcases hstop with h | h | h
    · exact h
    · unfold stopEarly at h
      rw [hl.1, hl.2.1, hl.2.2] at h
      simp [atLeast, below] at h
    · exact absurd hprune h
  rcases hs.complete row (mem_posExamples.mpr ⟨hrow, hpos⟩) with h | ⟨r, hr, row', hr', hlab, hh⟩
  · rw [hse] at h; simp at h
  · rw [← h1] at hr
    have : row' = row := row_eq_of_label hu (mem_posExamples.mp hr').1 hrow hlab
    subst this
    have hf := condsMet_iff.mp hh
    have hrep := removeDups_rep (same := condsSameKey) st.rules hr
    have hfin : m.ruleset.rules.map Rule.conds = removeDups condsSameKey st.rules := by
      rw [hm]; unfold finish; rw [hl.2.1]; rfl
    rw [← hfin] at hrep
    rcases hrep with h | ⟨t, ht, hkey⟩
    · obtain ⟨q, hq, he⟩ := List.mem_map.mp h
      exact ⟨q, hq, by unfold Fires; rw [he]; exact hf⟩
    · obtain ⟨q, hq, rfl⟩ := List.mem_map.mp ht
      refine ⟨q, hq, ?_⟩
      intro c hc
      have hperm := condsSameKey_iff.mp hkey
      have : c.text ∈ condTexts r := hperm.mem_iff.mp (List.mem_map.mpr ⟨c, hc, rfl⟩)
      obtain ⟨d, hd, hde⟩ := List.mem_map.mp this
      exact (htext d c (hcond r hr d hd) (hcond _ (hsubl q hq) c hc) hde row').mp (hf d hd)

/-- The hypotheses are met. -/
example : ReadsApart Demo.xor Demo.fc ∧ Demo.xor.UniqueIndex ∧
    (irepFitPlain 9 Demo.R0 Demo.S0 { pruneSize := none } none [] Demo.xor Demo.fc Demo.vp ()).map
      (fun m => (m.1.ruleset.rules.length, m.1.ruleset.predict (Demo.xor.dropCol Demo.fc))) =
      .ok (2, .ok (Demo.xor.rows.map (fun row => decide (Positive Demo.fc Demo.vp row)))) :=
  ⟨Demo.xor_readsApart, by unfold Frame.UniqueIndex; decide +kernel, by decide +kernel⟩

/-! ### C74: exceptions -/

theorem numCoveredC_total {r : List Cond} {d : Frame} (h : ∀ c ∈ r, c.feature ∈ d.cols) :
    numCoveredC r d = .ok (rowHits r d) := by
  unfold numCoveredC
  rw [condsCover_ok h]
  rfl

/-- Growth over frames that have the columns of all candidates raises nothing. -/
theorem growRule_total [Arith] [Arith.Lawful] {fuel : Nat} {cands : List Cond} {lim : Limits} {pos neg B : Frame} {init : List Cond}
    (hB : ∀ row ∈ neg.rows, row ∈ B.rows) (hf : B.rows.length < fuel)
    (hc : ∀ c ∈ cands, c.feature ∈ pos.cols ∧ c.feature ∈ neg.cols)
    (hi : ∀ c ∈ init, c.feature ∈ pos.cols ∧ c.feature ∈ neg.cols) :
    ∃ r, growRule fuel cands lim pos neg init = .ok r := by
  have hstep : ∀ r : List Cond, (∀ c ∈ r, c.feature ∈ pos.cols ∧ c.feature ∈ neg.cols) →
      ∃ o, growStep cands lim pos neg r = .ok o := by
    intro r hr
    have hbest : ∃ o, bestSuccessor r cands pos neg = .ok o := by
      unfold bestSuccessor successors
      rw [bestLoopM_ok (s := fun s => Arith.gain (rowHits r pos) (rowHits r neg) (rowHits s pos) (rowHits s neg))]
      · exact ⟨_, rfl⟩
      · intro s hs
        obtain ⟨c, hcm, rfl⟩ := List.mem_map.mp hs
        have hcm := (List.mem_filter.mp hcm).1
        have hrc : ∀ x ∈ r ++ [c], x.feature ∈ pos.cols ∧ x.feature ∈ neg.cols := by
          intro x hx
          rcases List.mem_append.mp hx with hx | hx
          · exact hr x hx
          · simp at hx; subst hx; exact hc x hcm
        unfold gainDf
        rw [numCoveredC_total (fun x hx => (hr x hx).1), numCoveredC_total (fun x hx => (hr x hx).2),
          numCoveredC_total (fun x hx => (hrc x hx).1), numCoveredC_total (fun x hx => (hrc x hx).2)]
        rfl
    obtain ⟨o, ho⟩ := hbest
    unfold growStep
    rw [numCoveredC_total (fun x hx => (hr x hx).2), numCoveredC_total (fun x hx => (hr x hx).1), ho]
    simp only [ok_bind]
    split
    · exact ⟨_, rfl⟩
    · split <;> simp only [ok_bind] <;> split <;> first | exact ⟨_, rfl⟩ | (cases o <;> exact ⟨_, rfl⟩)
  obtain ⟨r, hr, _⟩ := pyWhile_total (body := growStep cands lim pos neg) (Q := fun _ => True)
    (I := fun r => ∀ c ∈ r, c.feature ∈ pos.cols ∧ c.feature ∈ neg.cols) (m := fun r => rowHits r B) (by
      intro r hI
      obtain ⟨o, ho⟩ := hstep r hI
      cases o with
      | done a => exact Or.inl ⟨a, ho, trivial⟩
      | more r' =>
        obtain ⟨⟨c, rfl, hu⟩, _⟩ := growStep_more ho
        refine Or.inr ⟨_, ho, ?_, hu.base_lt hB⟩
        intro x hx
        rcases List.mem_append.mp hx with hx | hx
        · exact hI x hx
        · simp at hx; subst hx; exact ⟨hu.posCol, hu.negCol⟩) fuel init hi (lt_of_le_of_lt (rowHits_le _ _) hf)
  exact ⟨r, hr⟩

theorem pruneRule_total {metric : List Cond → Except PyErr (Option Rat)} {rule : List Cond}
    (h : ∀ n, ∃ v, metric (rule.take n) = .ok (some v)) : ∃ p, pruneRule metric rule = .ok (some p) := by
  have : ∀ n best, ∃ p, pruneLoop metric rule n best = .ok (some p) := by
    intro n
    induction n with
    | zero => intro best; exact ⟨_, rfl⟩
    | succ n ih =>
      intro best
      obtain ⟨v, hv⟩ := h (n + 1)
      rw [pruneLoop, hv]
      exact ih _
  unfold pruneRule
  split
  · exact ⟨_, rfl⟩
  · exact this _ _

/-- C74, IREP. With `cn_optimize=False`, a `prune_size` that is None, 0 or leaves something to prune on (C35_prune_sizes:
without rounding, `0 < prune_size <= 1`) and `alpha > 0`, fitting a non-empty frame that
has the class column raises nothing, whatever the data, labels, shuffles and limits; the features of the initial model
(and of its possible conditions) must be in the data, the latter not the class. -/
theorem C74_irep_plain_never_raises [Arith] [Arith.Lawful] (R : PyRandom) (hR : R.Lawful) (S : SetOps) (hp : Hyper)
    (hl : hp.irepPrune = 0 ∨ Arith.LeavesSome hp.irepPrune) (ha : 0 < hp.alpha) (old : Option (List Cond)) (init : List (List Cond)) (df : Frame) (cf : Feat)
    (pc : Val) (hne : df.rows ≠ []) (hcf : cf ∈ df.cols) (hinit : ∀ r ∈ init, ∀ c ∈ r, c.feature ∈ df.cols)
    (hold : ∀ c ∈ old.getD [], c.feature ∈ df.cols ∧ c.feature ≠ cf) (fuel : Nat)
    (hf : df.rows.length < fuel) (g : R.G) : ∃ m g', irepFitPlain fuel R S hp old init df cf pc g = .ok (m, g') := by
  unfold irepFitPlain
  simp only [hne, if_false, hcf, not_true_eq_false]
  have hl1 := posExamples_length (df := df) (cf := cf) (pc := pc)
  have hl2 := negExamples_length (df := df) (cf := cf) (pc := pc)
  have hcols : (negExamples df cf pc).cols = (posExamples df cf pc).cols := rfl
  generalize hcands : updatedConds S old (posExamples df cf pc) (negExamples df cf pc) = cands
  have hcf' : ∀ c ∈ cands, c.feature ∈ (posExamples df cf pc).cols := by
    intro c hc
    rw [← hcands] at hc
    rcases List.mem_append.mp hc with hc | hc
    · exact mem_examples_cols.mpr (hold c hc)
    · unfold sharedConds at hc
      obtain ⟨f, hf, h⟩ := List.mem_flatMap.mp hc
      obtain ⟨v, _, rfl⟩ := List.mem_map.mp h
      exact hf
  let I : FrameSt R → Prop := fun st => st.pos.cols = (posExamples df cf pc).cols ∧ st.neg.cols = (posExamples df cf pc).cols ∧
    ∀ row ∈ st.neg.rows, row ∈ (negExamples df cf pc).rows
  have hstep : ∀ st : FrameSt R, I st → ∃ o, irepStep fuel R cands hp st = .ok o := by
    rintro st ⟨hpc, hnc, hsub⟩
    unfold irepStep
    split
    · exact ⟨_, rfl⟩
    rename_i hpne
    split
    · exact ⟨_, rfl⟩
    rcases hp1 : dfShuffledSplit R st.g st.pos (Arith.complement hp.irepPrune) hp.randomState with ⟨a, b, g1⟩
    rcases hp2 : dfShuffledSplit R g1 st.neg (Arith.complement hp.irepPrune) hp.randomState with ⟨c, d, g2⟩
    have hac : a.cols = st.pos.cols ∧ b.cols = st.pos.cols := by
      unfold dfShuffledSplit at hp1; simp only [Prod.mk.injEq] at hp1
      obtain ⟨rfl, rfl, _⟩ := hp1; exact ⟨rfl, rfl⟩
    have hcc : c.cols = st.neg.cols ∧ d.cols = st.neg.cols := by
      unfold dfShuffledSplit at hp2; simp only [Prod.mk.injEq] at hp2
      obtain ⟨rfl, rfl, _⟩ := hp2; exact ⟨rfl, rfl⟩
    obtain ⟨r, hr⟩ := growRule_total (fuel := fuel) (cands := cands) (lim := hp.lim) (pos := a) (neg := c)
      (B := negExamples df cf pc) (init := []) (fun row h => hsub row ((dfSplit_sub hp2).1 row h)) (by omega)
      (fun x hx => ⟨by rw [hac.1, hpc]; exact hcf' x hx, by rw [hcc.1, hnc]; exact hcf' x hx⟩) (by simp)
    have hrf : ∀ x ∈ r, x.feature ∈ (posExamples df cf pc).cols := by
      have hcl : ClosedOn cands (fun r => ∀ x ∈ r, x.feature ∈ (posExamples df cf pc).cols) := by
        refine ⟨by simp, ?_, fun r s hr hs c hc => hr c (hs.subset hc)⟩
        intro p n r c hr hu x hx
        rcases List.mem_append.mp hx with hx | hx
        · exact hr x hx
        · simp at hx; subst hx; exact hcf' x hu.mem
      exact hcl.grow hcl.nil hr
    simp only [hp1, hp2, hr, ok_bind]
    split
    · rw [condsCover_ok (by intro x hx; rw [hpc]; exact hrf x hx)]
      exact ⟨_, rfl⟩
    · rename_i hz
      have hbne : b.rows ≠ [] := by
        have hidx : st.pos.index ≠ [] := by unfold Frame.index; simpa using hpne
        have hls := hl.resolve_left hz _ (List.length_pos_of_ne_nil hidx)
        have := randomSplit_prune_ne_nil hR st.g (l := st.pos.index) (q := Arith.complement hp.irepPrune) hp.randomState
          hls.1 hls.2
        unfold dfShuffledSplit at hp1
        rcases hrs : randomSplit R st.g st.pos.index (Arith.complement hp.irepPrune) hp.randomState with ⟨x, y, z⟩
        rw [hrs] at hp1 this
        simp only [Prod.mk.injEq] at hp1
        obtain ⟨_, rfl, _⟩ := hp1
        obtain ⟨l, hl⟩ := List.exists_mem_of_ne_nil _ this
        have hlm : l ∈ st.pos.index := by
          have hperm := randomSplit_mem hR st.g st.pos.index (Arith.complement hp.irepPrune) hp.randomState l
          rw [hrs] at hperm
          exact hperm.mpr (Or.inr hl)
        obtain ⟨row, hrow, rfl⟩ := List.mem_map.mp hlm
        exact List.ne_nil_of_mem (loc_label.mpr ⟨hrow, hl⟩)
      have hpre : ∀ x, (∀ c ∈ x, c.feature ∈ (posExamples df cf pc).cols) → ∃ v, irepMetric b d x = .ok (some v) := by
        intro x hx
        unfold irepMetric
        rw [numCoveredC_total (by intro c hc; rw [hac.2, hpc]; exact hx c hc),
          numCoveredC_total (by intro c hc; rw [hcc.2, hnc]; exact hx c hc)]
        have : ¬ (b.rows.length + d.rows.length = 0) := by
          have := List.length_pos_of_ne_nil hbne; omega
        simp only [this, if_false, ok_bind]
        exact ⟨_, rfl⟩
      obtain ⟨pruned, hpr⟩ := pruneRule_total (metric := irepMetric b d) (rule := r)
        (fun n => hpre _ (fun c hc => hrf c (List.mem_of_mem_take hc)))
      have hpf : ∀ c ∈ pruned, c.feature ∈ (posExamples df cf pc).cols :=
        fun c hc => hrf c ((pruneRule_prefix hpr).1.subset hc)
      simp only [hpr, ok_bind]
      unfold precisionDf
      rw [numCoveredC_total (by intro c hc; rw [hac.2, hpc]; exact hpf c hc),
        numCoveredC_total (by intro c hc; rw [hcc.2, hnc]; exact hpf c hc)]
      simp only [ok_bind]
      split
      · exact ⟨_, rfl⟩
      · simp only [pure_eq_ok, ok_bind]
        split
        · exact ⟨_, rfl⟩
        · unfold rmCoveredRule
          rw [condsCover_ok (by intro x hx; rw [hpc]; exact hpf x hx),
            condsCover_ok (by intro x hx; rw [hnc]; exact hpf x hx)]
          exact ⟨_, rfl⟩
  obtain ⟨st, hst, _⟩ := pyWhile_total (body := irepStep fuel R cands hp) (Q := fun _ => True) (I := I)
    (m := fun s => s.pos.rows.length) (by
      intro s hI
      obtain ⟨o, ho⟩ := hstep s hI
      cases o with
      | done a => exact Or.inl ⟨a, ho, trivial⟩
      | more s' =>
        obtain ⟨rule, hadd⟩ := irepStep_more ho
        refine Or.inr ⟨s', ho, ⟨?_, ?_, fun row hr => hI.2.2 row (hadd.neg_sub.subset hr)⟩, hadd.pos_lt hR⟩
        · rw [hadd.pos]; exact hI.1
        · rcases hadd.neg with ⟨_, h⟩ | ⟨_, h⟩ <;> rw [h]
          · exact hI.2.1
          · exact hI.2.1) fuel
    { rules := init, pos := posExamples df cf pc, neg := negExamples df cf pc, g := g }
    ⟨rfl, hcols, fun _ h => h⟩ (by simp only; omega)
  have hst' : irepGrow fuel R cands hp init (posExamples df cf pc) (negExamples df cf pc) g = .ok st := hst
  simp only [hst', ok_bind]
  obtain ⟨s, hs, hrules, _⟩ := irepGrow_reach hst'
  have hfeat : HasFeatures df (st.rules.map (fun c => ({ conds := c } : Rule))) := by
    intro r hr c hc
    obtain ⟨cs, hcs, rfl⟩ := List.mem_map.mp hr
    have hcl : ClosedOn cands (fun r => ∀ x ∈ r, x.feature ∈ df.cols) := by
      refine ⟨by simp, ?_, fun r s hr hs c hc => hr c (hs.subset hc)⟩
      intro p n r c hr hu x hx
      rcases List.mem_append.mp hx with hx | hx
      · exact hr x hx
      · simp at hx; subst hx; exact (mem_examples_cols.mp (hcf' x hu.mem)).1
    exact hcl.irepGrow hst' hinit cs hcs c hc
  rw [recalibrate_ok ha hcf hfeat]
  exact ⟨_, _, rfl⟩

/-- The hypotheses are met, repeated labels and missing values included. -/
example : (Demo.holed.rows ≠ [] ∧ Demo.fc ∈ Demo.holed.cols) ∧
    (irepFitPlain 19 Demo.R0 Demo.S1 { pruneSize := some (1 / 3) } none [] Demo.holed Demo.fc Demo.vp ()).map (fun _ => ()) =
      .ok () := by decide +kernel

namespace Demo
/-- Valid training data with distinct labels and nothing missing. -/
def vz : Val := .str p!"z"
def bad1 : Frame := Frame.ofTable [fa, fb, fc]
  [(0, [vz, vx, vn]), (1, [vy, vy, vp]), (2, [vz, vz, vp]), (3, [vy, vx, vn]), (4, [vy, vz, vn]), (5, [vy, vz, vn]),
   (6, [vz, vx, vp]), (7, [vz, vx, vp])]
def bad2 : Frame := Frame.ofTable [fa, fb, fc]
  [(0, [vy, vz, vp]), (1, [vz, vz, vn]), (2, [vy, vy, vp]), (3, [vx, vx, vp]), (4, [vy, vz, vn]), (5, [vy, vy, vn])]
end Demo

/-- A rule that uses up all the possible conditions has no description length: ZeroDivisionError. -/
theorem C74_rule_of_all_conditions [Arith] (n : Nat) (hn : 1 ≤ n) : ruleTheory n n = .error .zeroDivision := by
  unfold ruleTheory
  have h1 : max n 1 = n := by omega
  have h2 : n ≠ 0 := by omega
  simp [h1, h2]

/-- C74 is false of RIPPER: on valid data with distinct labels, `cn_optimize=False` fails with ZeroDivisionError (a rule
made of all the shared values), with ValueError (a row is counted once per rule that covers it, so the logarithm of a
non-positive number is taken) and with UnboundLocalError (for the same reason an accuracy can be negative); with the index,
the same fits succeed. -/
theorem C74_refuted_ripper_plain :
    (Demo.conj.UniqueIndex ∧ Demo.bad1.UniqueIndex ∧ Demo.bad2.UniqueIndex) ∧
    (ripperFitPlain 19 Demo.R0 Demo.S0 { pruneSize := some (1 / 2) } none [] Demo.conj Demo.fc Demo.vp ()).map
      (fun m => m.1.ruleset.rules.map Rule.conds) = .error .zeroDivision ∧
    (ripperFitPlain 19 Demo.R0 Demo.S0 { pruneSize := some (1 / 3) } none [] Demo.bad1 Demo.fc Demo.vp ()).map
      (fun m => m.1.ruleset.rules.map Rule.conds) = .error .valueError ∧
    (ripperFitPlain 19 Demo.R0 Demo.S0 { pruneSize := some (1 / 3) } none [] Demo.bad2 Demo.fc Demo.vp ()).map
      (fun m => m.1.ruleset.rules.map Rule.conds) = .error .unboundLocal ∧
    (∀ d ∈ [Demo.conj, Demo.bad1, Demo.bad2],
      ((ripperFit 19 Demo.R0 { pruneSize := some (1 / 3) } [] d Demo.fc Demo.vp ()).map
      (fun _ => ())) = .ok ()) := by
  exact ⟨⟨by unfold Frame.UniqueIndex; decide +kernel, by unfold Frame.UniqueIndex; decide +kernel,
    by unfold Frame.UniqueIndex; decide +kernel⟩, by decide +kernel⟩

/-! ### reproducibility -/

/-- C36, IREP with `cn_optimize=False`. With `random_state` set and one order in which Python enumerates sets of values,
the fitted model does not depend on the state the global generator had before `fit`. -/
theorem C36_irep_plain_reproducible [Arith] (R : PyRandom) (hR : R.SeedResets) (S : SetOps) (hp : Hyper) (s : Int)
    (hs : hp.randomState = some s) (old : Option (List Cond)) (init : List (List Cond)) (df : Frame) (cf : Feat) (pc : Val)
    (fuel : Nat) (g g' : R.G) :
    (irepFitPlain fuel R S hp old init df cf pc g).map Prod.fst =
      (irepFitPlain fuel R S hp old init df cf pc g').map Prod.fst := by
  unfold irepFitPlain
  split
  · rfl
  split
  · rfl
  simp only
  rw [map_bind, map_bind]
  refine bind_map_congr (f := FrameSt.rules) (irepGrow_seeded hR hs _ _ _ _ _) ?_
  intro a b hab
  rw [hab, map_bind, map_bind]
  rfl

/-- C36, RIPPER with `cn_optimize=False`. -/
theorem C36_ripper_plain_reproducible [Arith] (R : PyRandom) (hR : R.SeedResets) (S : SetOps) (hp : Hyper) (s : Int)
    (hs : hp.randomState = some s) (old : Option (List Cond)) (init : List (List Cond)) (df : Frame) (cf : Feat) (pc : Val)
    (fuel : Nat) (g g' : R.G) :
    (ripperFitPlain fuel R S hp old init df cf pc g).map Prod.fst =
      (ripperFitPlain fuel R S hp old init df cf pc g').map Prod.fst := by
  unfold ripperFitPlain
  split
  · rfl
  split
  · rfl
  rw [map_bind, map_bind]
  refine bind_map_congr (f := Prod.fst) (ripperStagesDf_seeded hR hs _ _ _ _ _) ?_
  rintro ⟨a, ga⟩ ⟨b, gb⟩ hab
  simp only at hab
  subst hab
  simp only
  rw [map_bind, map_bind]
  rfl

namespace Demo
/-- Six rows in which `a=x` and `a=y` gain the same. -/
def tied : Frame := Frame.ofTable [fa, fb, fc]
  [(0, [vx, vx, vn]), (1, [vx, vx, vp]), (2, [vx, vx, vn]), (3, [vy, vy, vp]), (4, [vy, vx, vn]), (5, [vx, vx, vp])]
end Demo

/-- C75 is false: with `cn_optimize=False` a seed does not determine the model. Candidate conditions are listed in the order in
which Python enumerates a set of values, for texts another one in every process; two lawful orders, the same seed, data and
generator give opposite models, with either algorithm. -/
theorem C75_refuted_same_seed_same_model :
    Demo.R1.Lawful ∧ Demo.R1.SeedResets ∧ Demo.S0.Lawful ∧ Demo.S1.Lawful ∧ Demo.tied.UniqueIndex ∧ Demo.xor.UniqueIndex ∧
    (ripperFitPlain 19 Demo.R1 Demo.S0 { pruneSize := some (1 / 3), randomState := some 3 } none [] Demo.tied Demo.fc Demo.vp
      (0 : Nat)).map (fun m => m.1.ruleset.rules.map Rule.conds) = .ok [[⟨Demo.fa, Demo.vx⟩]] ∧
    (ripperFitPlain 19 Demo.R1 Demo.S1 { pruneSize := some (1 / 3), randomState := some 3 } none [] Demo.tied Demo.fc Demo.vp
      (0 : Nat)).map (fun m => m.1.ruleset.rules.map Rule.conds) = .ok [[⟨Demo.fa, Demo.vy⟩]] ∧
    (irepFitPlain 19 Demo.R1 Demo.S0 { pruneSize := none, randomState := some 3, lim := { maxRules := some 1 } } none [] Demo.xor
      Demo.fc Demo.vp (0 : Nat)).map (fun m => m.1.ruleset.rules.map Rule.conds) =
        .ok [[⟨Demo.fa, Demo.vx⟩, ⟨Demo.fb, Demo.vx⟩]] ∧
    (irepFitPlain 19 Demo.R1 Demo.S1 { pruneSize := none, randomState := some 3, lim := { maxRules := some 1 } } none [] Demo.xor
      Demo.fc Demo.vp (0 : Nat)).map (fun m => m.1.ruleset.rules.map Rule.conds) =
        .ok [[⟨Demo.fa, Demo.vy⟩, ⟨Demo.fb, Demo.vy⟩]] := by
  refine ⟨Demo.R1_lawful, Demo.R1_resets, Demo.S0_lawful, Demo.S1_lawful, ?_, ?_, by decide +kernel, by decide +kernel,
    by decide +kernel, by decide +kernel⟩ <;>
  · unfold Frame.UniqueIndex
    decide +kernel

/-! ### prune metrics in terms of rows -/

/-- C24. The prune metrics in terms of rows: with `p` and `n` the numbers of positive and negative pruning examples whose rows
satisfy the rule, out of `P` and `N`. (`Arith.quot a b` is `a / b`, rounded or not.) -/
theorem C24_metrics_of_rows [Arith] (df : Frame) (cf : Feat) (cn : CatNap) (hb : CatNap.build df cf = .ok cn) (hu : df.UniqueIndex)
    (pos neg : List Label) (r : List Cond) (hr : OverCols df cf r) (hne : 0 < pos.length + neg.length) :
    let p : Int := nCovered df r pos
    let n : Int := nCovered df r neg
    let P : Int := pos.length
    let N : Int := neg.length
    irepMetricCn cn pos neg r = .ok (some (Arith.quot (p + (N - n)) (P + N))) ∧
    ripperGrowMetricCn cn pos neg r = .ok (some (Arith.quot (p - n + 1) (p + n + 1))) ∧
    ripperOptMetricCn cn pos neg r = .ok (some (Arith.quot (p + (N - n)) (P + N))) := by
  simp only [nCovered_eq hb hu hr]
  exact C24_metrics cn pos neg r hne

/-- C24 with `cn_optimize=False`: the metrics of IREP and of RIPPER's growing phase, and the precision IREP stops by, count the
rows of the pruning frames that satisfy the rule, repeated labels or not. -/
theorem C24_plain_metrics [Arith] (pos neg : Frame) (r : List Cond) (hp : ∀ c ∈ r, c.feature ∈ pos.cols)
    (hn : ∀ c ∈ r, c.feature ∈ neg.cols) :
    let p : Nat := (pos.rows.filter (fun row => decide (FiresC row r))).length
    let n : Nat := (neg.rows.filter (fun row => decide (FiresC row r))).length
    let P : Nat := pos.rows.length
    let N : Nat := neg.rows.length
    irepMetric pos neg r = (if P + N = 0 then .error .zeroDivision
      else .ok (some (Arith.quot ((p : Int) + ((N : Int) - n)) ((P : Int) + N)))) ∧
    ripperGrowMetric pos neg r = .ok (some (Arith.quot ((p : Int) - n + 1) ((p : Int) + n + 1))) ∧
    precisionDf r pos neg = .ok (if p + n = 0 then none else some (Arith.quot p ((p : Int) + n))) := by
  have hf : ∀ d : Frame, d.rows.filter (fun row => decide (FiresC row r)) = d.rows.filter (condsMet r) := by
    intro d
    congr 1
    funext row
    rw [Bool.eq_iff_iff, decide_eq_true_eq, condsMet_iff]
  have h1 : ∀ d : Frame, (∀ c ∈ r, c.feature ∈ d.cols) →
      numCoveredC r d = .ok (d.rows.filter (fun row => decide (FiresC row r))).length := by
    intro d hd
    rw [hf]
    rcases numCoveredC_cases r d with ⟨h, _⟩ | ⟨_, h⟩
    · exact h
    · exact absurd hd h
  refine ⟨?_, ?_, ?_⟩
  · unfold irepMetric
    simp only [h1 pos hp, h1 neg hn, ok_bind]
    split <;> rfl
  · unfold ripperGrowMetric
    simp only [h1 pos hp, h1 neg hn, ok_bind]
    rfl
  · unfold precisionDf
    simp only [h1 pos hp, h1 neg hn, ok_bind]
    split <;> rfl

/-- The hypotheses hold on the demonstration data; the numbers are those expected. -/
example : (∀ c ∈ [(⟨Demo.fa, Demo.vx⟩ : Cond)], c.feature ∈ Demo.conj.cols) ∧
    ripperGrowMetric (posRows Demo.conj Demo.fc Demo.vp) (negRows Demo.conj Demo.fc Demo.vp) [⟨Demo.fa, Demo.vx⟩] =
      .ok (some (4 / 10)) := by
  refine ⟨?_, ?_⟩ <;> decide +kernel

end Witt
