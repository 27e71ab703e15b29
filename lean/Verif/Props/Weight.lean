import Verif.Lemmas.Weight
import Verif.Props.FitTrain
import Verif.Props.PlainApi
/-
C85: every condition of a learned rule pulls its weight on the training data.
-/
namespace Witt
open Spec

namespace Spec
/-- On the training data `df`, the condition `c` pulls its weight after the conditions `before`: some positive row meets it
and all of them, and some negative row meets all of them but not it. -/
structure PullsWeight (df : Frame) (cf : Feat) (pc : Val) (before : List Cond) (c : Cond) : Prop where
  keeps : ∃ row ∈ df.rows, Positive cf pc row ∧ FiresC row (before ++ [c])
  excludes : ∃ row ∈ df.rows, ¬ Positive cf pc row ∧ FiresC row before ∧ ¬ Meets row c
end Spec

section
variable [Arith] [Arith.Lawful] {df : Frame} {cf : Feat} {pc : Val}

omit [Arith] [Arith.Lawful] in
/-- A step useful on the labels of positives and negatives pulls its weight. -/
theorem UsefulStep.pulls {cn : CatNap} (hb : CatNap.build df cf = .ok cn) (hu : df.UniqueIndex) {pos neg : List Label}
    (hp : ∀ l ∈ pos, l ∈ labelSet (posRows df cf pc).index) (hn : ∀ l ∈ neg, l ∈ labelSet (negRows df cf pc).index)
    {r : List Cond} {c : Cond} (hr : OverCols df cf r) (h : UsefulStep cn pos neg r c) :
    OverCols df cf (r ++ [c]) ∧ PullsWeight df cf pc r c := by
  have hrc : OverCols df cf (r ++ [c]) := overCols_append.mpr
    ⟨hr, by intro x hx; simp at hx; subst hx; exact overCols_conds hb h.mem⟩
  refine ⟨hrc, ?_, ?_⟩
  · obtain ⟨l, hl, hh⟩ := h.keeps
    obtain ⟨row, hrow, hlab, hf⟩ := (CatNap.hit_iff hb hu hrc).mp hh
    obtain ⟨row', hrow', hlab', hpos⟩ := mem_posLabels.mp (hp l hl)
    have : row = row' := row_eq_of_label hu hrow hrow' (hlab.trans hlab'.symm)
    exact ⟨row, hrow, this ▸ hpos, hf⟩
  · obtain ⟨l, hl, hh, hh'⟩ := h.loses
    obtain ⟨row, hrow, hlab, hf⟩ := (CatNap.hit_iff hb hu hr).mp hh
    obtain ⟨row', hrow', hlab', hneg⟩ := mem_negLabels.mp (hn l hl)
    have : row = row' := row_eq_of_label hu hrow hrow' (hlab.trans hlab'.symm)
    refine ⟨row, hrow, this ▸ hneg, hf, fun hm => ?_⟩
    have : cn.hit (r ++ [c]) l = true := by
      rw [CatNap.hit_iff hb hu hrc]
      refine ⟨row, hrow, hlab, fun x hx => ?_⟩
      rcases List.mem_append.mp hx with hx | hx
      · exact hf x hx
      · simp at hx; subst hx; exact hm
    rw [this] at hh'; cases hh'

omit [Arith.Lawful] in
theorem FrameUseful.pulls {cands : List Cond} {pos neg : Frame}
    (hp : ∀ x ∈ pos.rows, x ∈ (posExamples df cf pc).rows) (hn : ∀ x ∈ neg.rows, x ∈ (negExamples df cf pc).rows)
    {r : List Cond} {c : Cond} (h : FrameUseful cands pos neg r c) : PullsWeight df cf pc r c := by
  refine ⟨?_, ?_⟩
  · obtain ⟨row, hrow, hm⟩ := h.keeps
    obtain ⟨h1, h2⟩ := List.mem_filter.mp (hp row hrow)
    exact ⟨row, h1, Val.pyEq_iff.mp h2, condsMet_iff.mp hm⟩
  · obtain ⟨row, hrow, hm, hm'⟩ := h.loses
    obtain ⟨h1, h2⟩ := List.mem_filter.mp (hn row hrow)
    refine ⟨row, h1, fun h => ?_, condsMet_iff.mp hm, fun h => ?_⟩
    · rw [Positive, ← Val.pyEq_iff] at h; simp [h] at h2
    · rw [← Cond.met_iff] at h; simp [h] at hm'

/-- The beginnings of the rules in `init`. -/
def Starts (init : List (List Cond)) (base : List Cond) : Prop := base = [] ∨ ∃ r0 ∈ init, base <+: r0

omit [Arith] [Arith.Lawful] in
theorem Starts.pre {init : List (List Cond)} (r s : List Cond) (h : Starts init r) (hs : s <+: r) : Starts init s := by
  rcases h with rfl | ⟨r0, h1, h2⟩
  · left; simpa using hs
  · exact Or.inr ⟨r0, h1, hs.trans h2⟩

omit [Arith] [Arith.Lawful] in
theorem Starts.built {init : List (List Cond)} {U : List Cond → Cond → Prop} {r : List Cond} (h : r ∈ init) :
    BuiltFrom (Starts init) U r := by
  refine ⟨r, Or.inr ⟨r, h, List.prefix_rfl⟩, List.prefix_rfl, fun before c hx hy => ?_⟩
  have a := hx.length_le
  have b := hy.length_le
  simp at b
  omega

omit [Arith] [Arith.Lawful] in
theorem Starts.nil {init : List (List Cond)} {U : List Cond → Cond → Prop} : BuiltFrom (Starts init) U [] := by
  refine ⟨[], Or.inl rfl, List.prefix_rfl, fun before c _ hy => ?_⟩
  have b := hy.length_le
  simp at b

omit [Arith] [Arith.Lawful] in
theorem pulls_closedIn {cn : CatNap} (hb : CatNap.build df cf = .ok cn) (hu : df.UniqueIndex) {init : List (List Cond)} :
    ClosedIn cn (labelSet (posRows df cf pc).index) (labelSet (negRows df cf pc).index)
      (fun r => OverCols df cf r ∧ BuiltFrom (Starts init) (PullsWeight df cf pc) r) where
  nil := ⟨by intro c hc; simp at hc, Starts.nil⟩
  snoc := fun pos neg r c hp hn h hus => ⟨(hus.pulls hb hu hp hn h.1).1, h.2.snoc (hus.pulls hb hu hp hn h.1).2⟩
  pre := fun r s h hs => ⟨fun c hc => h.1 c (hs.subset hc), h.2.pre Starts.pre hs⟩

omit [Arith.Lawful] in
theorem pulls_closedRows {init : List (List Cond)} :
    ClosedRows (posExamples df cf pc) (negExamples df cf pc) (BuiltFrom (Starts init) (PullsWeight df cf pc)) where
  nil := Starts.nil
  snoc := fun _ _ _ _ _ hp hn _ _ h hus => h.snoc (hus.pulls hp hn)
  pre := fun _ _ h hs => h.pre Starts.pre hs
end

/-- C85. Every learned condition pulls its weight: a rule of a fitted model consists of a beginning taken from the initial
model (empty, if it was grown from scratch) and further conditions, each of which is met, together with all the conditions
before it, by some positive training row, and fails on some negative training row that meets all the conditions before it.
IREP and RIPPER, with and without `cn_optimize`; with `cn_optimize`, row labels have to be distinct and (RIPPER) the initial
model has to be about columns of the data. -/
theorem C85_conditions_pull_weight [Arith] [Arith.Lawful] (a : Method) (R : PyRandom) (hR : R.Lawful) (hp : Hyper) (old : Option (List Cond))
    (init : List (List Cond)) (df : Frame) (cf : Feat) (pc : Val) (hu : a.sets = none → df.UniqueIndex)
    (hinit : a = .ripper → ∀ r ∈ init, OverCols df cf r) (fuel : Nat) (g g' : R.G) (m : Fitted)
    (h : a.train fuel R hp old init df cf pc g = .ok (m, g')) :
    ∀ r ∈ m.ruleset.rules, ∃ base, (base = [] ∨ ∃ r0 ∈ init, base <+: r0) ∧ base <+: r.conds ∧
      ∀ before c, base <+: before → before ++ [c] <+: r.conds → PullsWeight df cf pc before c := by
  intro r hr
  have hmem : ∀ {rules : List (List Cond)}, m.ruleset.rules.map Rule.conds = finish hp.lim.maxTotalConds rules →
      r.conds ∈ rules := by
    intro rules hm
    have : r.conds ∈ m.ruleset.rules.map Rule.conds := List.mem_map.mpr ⟨r, hr, rfl⟩
    rw [hm] at this
    exact (finish_sublist _ _).subset this
  show BuiltFrom (Starts init) (PullsWeight df cf pc) r.conds
  cases a with
  | irep =>
    obtain ⟨_, cn, st, hb, hg, hm, _⟩ := irepFit_ok h
    rcases (pulls_closedIn hb (hu rfl)).irepGrow hR (CatNap.build_WF hb) (fun _ h => h) (fun _ h => h) hg _ (hmem hm) with h | h
    · exact Starts.built h
    · exact h.2
  | ripper =>
    obtain ⟨_, cn, rules, hb, hg, hm, _⟩ := ripperFit_ok h
    exact ((pulls_closedIn hb (hu rfl)).stages hR (CatNap.build_WF hb) hg
      (fun r hr => ⟨hinit rfl r hr, Starts.built hr⟩) _ (hmem hm)).2
  | irepPlain S =>
    obtain ⟨_, _, st, hg, hm, _⟩ := irepFitPlain_ok h
    exact pulls_closedRows.irepGrow PartOf.rfl PartOf.rfl hg (fun r hr => Starts.built hr) _ (hmem hm)
  | ripperPlain S =>
    obtain ⟨_, _, rules, hg, hm, _⟩ := ripperFitPlain_ok h
    exact pulls_closedRows.stages hg (fun r hr => Starts.built hr) _ (hmem hm)

/-- C85 without an initial model: no condition of a fitted model is idle, and every rule that has conditions fires on some
positive training row; so dropping the last condition of a rule always makes it fire on more negative training rows. -/
theorem C85_no_idle_conditions [Arith] [Arith.Lawful] (a : Method) (R : PyRandom) (hR : R.Lawful) (hp : Hyper) (old : Option (List Cond))
    (df : Frame) (cf : Feat) (pc : Val) (hu : a.sets = none → df.UniqueIndex) (fuel : Nat) (g g' : R.G) (m : Fitted)
    (h : a.train fuel R hp old [] df cf pc g = .ok (m, g')) :
    ∀ r ∈ m.ruleset.rules, (∀ before c, before ++ [c] <+: r.conds → PullsWeight df cf pc before c) ∧
      (r.conds ≠ [] → ∃ row ∈ df.rows, Positive cf pc row ∧ Fires row r) := by
  intro r hr
  obtain ⟨base, hbase, _, hall⟩ := C85_conditions_pull_weight a R hR hp old [] df cf pc hu (by simp) fuel g g' m h r hr
  have hb : base = [] := by
    rcases hbase with h | ⟨r0, h, _⟩
    · exact h
    · simp at h
  subst hb
  refine ⟨fun before c hc => hall before c List.nil_prefix hc, fun hne => ?_⟩
  have := (hall r.conds.dropLast (r.conds.getLast hne) List.nil_prefix
    (by rw [List.dropLast_append_getLast])).keeps
  rwa [List.dropLast_append_getLast] at this

/-- C85 for the API. After a successful `fit` of either class without an initial model, every condition of every rule
pulls its weight on the raw training table (the columns of `X` and the class labels): some row of the positive class meets it
and the conditions before it, and some other row meets all the conditions before it but not it, where a condition on a binned
column means that the number lies in the range of its label. -/
theorem C85_fit_no_idle_conditions [Arith] [Arith.Lawful] (a : Method) (R : PyRandom) (hR : R.Lawful) (F : PyFloat) (hF : F.Lawful) (P : PandasCut)
    (hP : P.Lawful F) (d : FitData) (hd : (d.names.getD d.X.cols).Nodup) (c c' : Clf) (h : FittedBy a R F P d .nothing c c')
    (df0 : TFrame) (hdf0 : toTraining d.X d.y (classFeatName d.classFeat d.y) d.names = .ok df0)
    (hu : a.sets = none → df0.UniqueIndex) :
    ∃ rs b pc, c'.ruleset = some rs ∧ c'.binner = some b ∧ c'.posClass = some pc ∧
      ∀ r ∈ rs.rules, ∀ before cond, before ++ [cond] <+: r.conds →
        (∃ row ∈ df0.rows, Positive (classFeatName d.classFeat d.y) pc row ∧ ∀ x ∈ before ++ [cond], RawMeets F b df0 row x) ∧
        (∃ row ∈ df0.rows, ¬ Positive (classFeatName d.classFeat d.y) pc row ∧ (∀ x ∈ before, RawMeets F b df0 row x) ∧
          ¬ RawMeets F b df0 row cond) := by
  obtain ⟨fuel, g, g', h⟩ := h
  obtain ⟨df1, df, pc, b, start, m, G, K, ht, hpc, hst, htrain, rfl, hdf, _, hcf, hGcf, hm, hshape⟩ := Method.fit_frames hF hP hd h
  rw [hdf0] at ht; injection ht with ht; subst ht
  cases hst
  refine ⟨m.ruleset, b, pc, rfl, rfl, rfl, ?_⟩
  generalize classFeatName d.classFeat d.y = cf at *
  have hu' : a.sets = none → df.toFrame.UniqueIndex := by
    intro hs
    have := hu hs
    unfold Frame.UniqueIndex at this ⊢
    rw [hdf]
    simpa [Frame.index, TFrame.mapAll, Function.comp_def] using this
  have hpos : ∀ row : Row, Positive cf pc { row with cell := fun f => G f (row.cell f) } ↔ Positive cf pc row := by
    intro row; unfold Positive; simp only [hGcf]
  have key := C85_no_idle_conditions a R hR c.hyper _ df.toFrame cf pc hu' fuel g g' m htrain
  obtain ⟨_, f2, _⟩ := Method.train_facts htrain
  intro r hr before cond hpre
  have hfeat : ∀ x ∈ before ++ [cond], x.feature ∈ df0.cols := by
    intro x hx
    rcases Method.train_selected htrain _ (f2 _ ⟨r, hr, x, hpre.subset hx, rfl⟩) with ⟨r0, hr0, _⟩ | ⟨_, y, hy, _⟩ | ⟨h7, _⟩
    · simp at hr0
    · simp at hy
    · rw [hdf] at h7; exact h7
  obtain ⟨⟨row, hrow, hrp, hrf⟩, ⟨row', hrow', hrn, hrf', hnm⟩⟩ := (key r hr).1 before cond hpre
  rw [hdf] at hrow hrow'
  obtain ⟨x, hx, rfl⟩ := List.mem_map.mp hrow
  obtain ⟨y, hy, rfl⟩ := List.mem_map.mp hrow'
  refine ⟨⟨x, hx, (hpos x).mp hrp, fun z hz => (hm z x (hfeat z hz)).mp (hrf z hz)⟩,
    ⟨y, hy, fun hq => hrn ((hpos y).mpr hq), fun z hz => (hm z y (hfeat z (by simp [hz]))).mp (hrf' z hz),
      fun hz => hnm ((hm cond y (hfeat cond (by simp))).mpr hz)⟩⟩

namespace Demo
/-- The only row with `b = x` is a positive with `a = x`. -/
def nested : Frame := Frame.ofTable [fa, fb, fc]
  [(0, [vx, vx, vp]), (1, [vx, vy, vp]), (2, [vx, vy, vp]), (3, [vx, vy, vn]), (4, [vy, vy, vn]), (5, [vy, vy, vn]),
   (6, [vy, vy, vn])]
end Demo

/-- C85 is about each condition after the ones before it. Against all the other conditions, or against the other rules, it
would be false: here IREP learns `[[a=x^b=x] V [a=x]]`, where `a=x` could be left out of the first rule (every training row
with `b=x` has `a=x`), and the whole first rule could be left out. -/
theorem C85_refuted_redundancy :
    (Method.train .irep 9 Demo.R0 { pruneSize := none } none [] Demo.nested Demo.fc Demo.vp ()).map
      (fun m => m.1.ruleset.rules.map Rule.conds) =
      .ok [[⟨Demo.fa, Demo.vx⟩, ⟨Demo.fb, Demo.vx⟩], [⟨Demo.fa, Demo.vx⟩]] ∧
    (∀ row ∈ Demo.nested.rows, Meets row ⟨Demo.fb, Demo.vx⟩ → Meets row ⟨Demo.fa, Demo.vx⟩) := by
  refine ⟨by decide +kernel, ?_⟩
  intro row hrow
  rw [← Cond.met_iff, ← Cond.met_iff]
  revert row
  decide +kernel

/-- The hypotheses hold of training runs whose rules have two conditions. -/
example : Demo.R0.Lawful ∧ Demo.conj.UniqueIndex ∧ Demo.xor.UniqueIndex ∧
    (Method.train .irep 9 Demo.R0 { pruneSize := none } none [] Demo.xor Demo.fc Demo.vp ()).map
      (fun m => m.1.ruleset.rules.map Rule.conds) =
      .ok [[⟨Demo.fa, Demo.vx⟩, ⟨Demo.fb, Demo.vx⟩], [⟨Demo.fa, Demo.vy⟩, ⟨Demo.fb, Demo.vy⟩]] ∧
    (Method.train .ripper 19 Demo.R0 { pruneSize := some (1 / 2) } none [] Demo.conj Demo.fc Demo.vp ()).map
      (fun m => m.1.ruleset.rules.map Rule.conds) = .ok [[⟨Demo.fa, Demo.vx⟩, ⟨Demo.fb, Demo.vx⟩]] ∧
    (∃ c', FittedBy .irep Demo.R0 Demo.F Demo.P Demo.mixedData .nothing Demo.newIrep c') ∧
    (∃ c', FittedBy .ripper Demo.R1 Demo.F Demo.P Demo.mixedData .nothing Demo.newRipper c') := by
  refine ⟨Demo.R0_lawful, ?_, ?_, ?_, ?_, Demo.mixed_fit_irep, Demo.mixed_fit_ripper⟩
  · unfold Frame.UniqueIndex; decide +kernel
  · unfold Frame.UniqueIndex; decide +kernel
  · decide +kernel
  · decide +kernel

end Witt
