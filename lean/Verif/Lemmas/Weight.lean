import Verif.Lemmas.PlainRipper
import Verif.Lemmas.RipperFit
/-
Properties of rules kept by every useful growth step on training examples and by cutting off the end: they hold of every
rule of a fitted model.
-/
namespace Witt
open Spec
variable [Arith] [Arith.Lawful]
variable {fuel : Nat} {R : PyRandom} {cn : CatNap} {hp : Hyper} {S : SetOps} {cands : List Cond}

/-! ### with the coverage index -/

/-- `P` holds of the empty rule, and is kept by cutting off the end and by steps useful on examples among `pos0`, `neg0`. -/
structure ClosedIn (cn : CatNap) (pos0 neg0 : List Label) (P : List Cond → Prop) : Prop where
  nil : P []
  snoc : ∀ pos neg r c, (∀ l ∈ pos, l ∈ pos0) → (∀ l ∈ neg, l ∈ neg0) → P r → UsefulStep cn pos neg r c → P (r ++ [c])
  pre : ∀ r s, P r → s <+: r → P s

variable {pos0 neg0 : List Label} {P : List Cond → Prop}

theorem ClosedIn.grow (hP : ClosedIn cn pos0 neg0 P) (hw : cn.WF) {lim : Limits}
    {pos neg : List Label} (hp : ∀ l ∈ pos, l ∈ pos0) (hn : ∀ l ∈ neg, l ∈ neg0) {init r : List Cond} (hi : P init)
    (h : growRuleCn fuel cn lim pos neg init = .ok r) : P r := by
  obtain ⟨r0, hc, hr⟩ := (growRuleCn_post hw h).chain
  have : P r0 := by
    clear hr
    induction hc with
    | refl => exact hi
    | snoc _ hu ih => exact hP.snoc _ _ _ _ hp hn ih hu
  rcases hr with rfl | ⟨_, _, rfl⟩
  · exact this
  · exact hP.pre _ _ this (List.dropLast_prefix _)

omit [Arith.Lawful] in
theorem split_sub (hR : R.Lawful) {g g' : R.G} {l a b : List Label} {q : Rat} {rs : Option Int}
    (h : randomSplit R g l q rs = (a, b, g')) : (∀ x ∈ a, x ∈ l) ∧ ∀ x ∈ b, x ∈ l := by
  have := randomSplit_mem hR g l q rs
  rw [h] at this
  exact ⟨fun x hx => (this x).mpr (Or.inl hx), fun x hx => (this x).mpr (Or.inr hx)⟩

theorem ClosedIn.irepGrow (hP : ClosedIn cn pos0 neg0 P) (hR : R.Lawful) (hw : cn.WF) {init : List (List Cond)}
    {pos neg : List Label} (hps : ∀ l ∈ pos, l ∈ pos0) (hns : ∀ l ∈ neg, l ∈ neg0) {g : R.G} {st : GrowSt R}
    (h : irepGrowCn fuel R cn hp init pos neg g = .ok st) : ∀ r ∈ st.rules, r ∈ init ∨ P r := by
  obtain ⟨s, hs, h1, _⟩ := irepGrowCn_reach h
  intro r hr
  rw [h1] at hr
  rcases hs.rule r hr with h | ⟨s1, s2, hr1, ha⟩
  · exact Or.inl h
  · right
    obtain ⟨a, b, c, d, g1, grown, e1, e2, e3, e4⟩ := ha.how
    have hg := hP.grow hw (fun l hl => hps l (hr1.pos_sub l ((split_sub hR e1).1 l hl)))
      (fun l hl => hns l (hr1.neg_sub.subset ((split_sub hR e2).1 l hl))) hP.nil e3
    rcases e4 with ⟨_, rfl, _⟩ | ⟨_, h4, _⟩
    · exact hg
    · exact hP.pre _ _ hg (pruneRule_prefix h4).1

omit [Arith.Lawful] in
theorem RipReach.neg_sub {allPos allNeg : List Label} {st0 st : RipSt R}
    (h : RipReach fuel R cn hp allPos allNeg st0 st) : ∀ l ∈ st.neg, l ∈ st0.neg := by
  induction h with
  | start => exact fun _ h => h
  | add _ ha ih => exact fun l hl => ih l (ha.neg_sub.subset hl)

theorem ClosedIn.ripperGrow (hP : ClosedIn cn pos0 neg0 P) (hR : R.Lawful) (hw : cn.WF) {init : List (List Cond)}
    {pos neg : List Label} (hps : ∀ l ∈ pos, l ∈ pos0) (hns : ∀ l ∈ neg, l ∈ neg0) {g : R.G} {st : RipSt R}
    (h : ripperGrowCn fuel R cn hp init pos neg g = .ok st) (hi : ∀ r ∈ init, P r) : ∀ r ∈ st.rules, P r := by
  obtain ⟨s, hs, h1, _⟩ := ripperGrowCn_reach h
  intro r hr
  rw [h1] at hr
  rcases hs.rule r hr with h | ⟨s1, s2, hr1, ha⟩
  · exact hi r h
  · obtain ⟨ps, a, b, c, d, g1, grown, _, e1, e2, _, e3, _, e4⟩ := ha.how
    exact hP.pre _ _ (hP.grow hw (fun l hl => hps l (hr1.pos_sub l ((split_sub hR e1).1 l hl)))
      (fun l hl => hns l (hr1.neg_sub l ((split_sub hR e2).1 l hl))) hP.nil e3) (ripPrune_prefix e4).1

theorem ClosedIn.choice (hP : ClosedIn cn pos0 neg0 P) (hw : cn.WF) {original : List (List Cond)} {odl : Rat} {i : Nat}
    {rule best : List Cond} {allPos allNeg a b c d : List Label} (ha : ∀ l ∈ a, l ∈ pos0) (hc : ∀ l ∈ c, l ∈ neg0)
    (hi : i < original.length) (hr : P rule)
    (h : optimizeChoice fuel cn hp original odl i rule allPos allNeg a b c d = .ok best) : P best := by
  obtain ⟨gRep, gRev, prRep, prRev, repDl, revDl, n, hch⟩ := optimizeChoice_ok h
  rcases hch.pick with ⟨_, rfl⟩ | ⟨_, h⟩ | ⟨_, _, h⟩
  · exact hr
  · have := hch.pruneRep
    rw [h] at this
    exact hP.pre _ _ (hP.grow hw ha hc hP.nil hch.growRep) (pruneRuleOn_prefix (iReplaced_getElem _ _ _ hi) this).1
  · have := hch.pruneRev
    rw [h] at this
    exact hP.pre _ _ (hP.grow hw ha hc hr hch.growRev) (pruneRuleOn_prefix (iReplaced_getElem _ _ _ hi) this).1

omit [Arith] [Arith.Lawful] in
theorem all_set {α : Type} {Q : α → Prop} {l : List α} {i : Nat} {v : α} (h : ∀ x ∈ l, Q x) (hv : Q v) :
    ∀ x ∈ l.set i v, Q x := by
  intro x hx
  rcases List.mem_or_eq_of_mem_set hx with h1 | h1
  · exact h x h1
  · exact h1 ▸ hv

theorem ClosedIn.loop (hP : ClosedIn cn pos0 neg0 P) (hR : R.Lawful) (hw : cn.WF) {ps : Rat} {rs : Option Int}
    {original : List (List Cond)} {odl : Rat} {allPos allNeg : List Label} :
    ∀ (rest : List (List Cond)) (i : Nat) (new : List (List Cond)) (pos neg : List Label) (g : R.G)
      (out : List (List Cond)) (g' : R.G), i + rest.length ≤ original.length → (∀ l ∈ pos, l ∈ pos0) → (∀ l ∈ neg, l ∈ neg0) →
    (∀ r ∈ rest, P r) → (∀ r ∈ new, P r) →
    optimizeLoop fuel R cn hp ps rs original odl allPos allNeg i rest new pos neg g = .ok (out, g') → ∀ r ∈ out, P r := by
  intro rest
  induction rest with
  | nil =>
    intro i new pos neg g out g' _ _ _ _ hn h
    simp only [optimizeLoop, Except.ok.injEq, Prod.mk.injEq] at h
    exact h.1 ▸ hn
  | cons rule rest ih =>
    intro i new pos neg g out g' hi hps hns hr hn h
    rw [optimizeLoop] at h
    rcases hp1 : randomSplit R g pos (Arith.complement ps) rs with ⟨a, b, g1⟩
    rcases hp2 : randomSplit R g1 neg (Arith.complement ps) rs with ⟨c, d, g2⟩
    simp only [hp1, hp2] at h
    split at h
    · simp only [pure_eq_ok, Except.ok.injEq, Prod.mk.injEq] at h
      exact h.1 ▸ hn
    split at h
    · simp only [pure_eq_ok, Except.ok.injEq, Prod.mk.injEq] at h
      exact h.1 ▸ hn
    obtain ⟨best, hbest, h⟩ := bind_ok_iff.mp h
    have hPr := hr rule (by simp)
    simp only [List.length_cons] at hi
    have hPb := hP.choice hw (fun l hl => hps l ((split_sub hR hp1).1 l hl))
      (fun l hl => hns l ((split_sub hR hp2).1 l hl)) (by omega) hPr hbest
    have hset : ∀ r ∈ new.set i (if (!condsIn best new) = true then best else rule), P r :=
      all_set hn (by split; exacts [hPb, hPr])
    split at h
    · simp only [pure_eq_ok, Except.ok.injEq, Prod.mk.injEq] at h
      exact h.1 ▸ hset
    · refine ih (i + 1) _ _ _ _ _ _ (by omega) ?_ ?_ (fun r hx => hr r (List.mem_cons_of_mem _ hx)) hset h
      · intro l hl; exact hps l (List.mem_filter.mp hl).1
      · intro l hl; exact hns l (List.mem_filter.mp hl).1

theorem ClosedIn.optimize (hR : R.Lawful) (hw : cn.WF) {allPos allNeg : List Label} (hP : ClosedIn cn allPos allNeg P)
    {rs : Option Int} {rules out : List (List Cond)} {g g' : R.G}
    (h : optimizeCn fuel R cn hp rs rules allPos allNeg g = .ok (out, g')) (hr : ∀ r ∈ rules, P r) :
    ∀ r ∈ out, P r := by
  unfold optimizeCn at h
  obtain ⟨⟨mdl, odl⟩, hb, h⟩ := bind_ok_iff.mp h
  simp only at h
  cases hps : hp.pruneSize with
  | none =>
    rw [hps] at h
    simp only at h
    split at h
    · simp only [pure_eq_ok, Except.ok.injEq, Prod.mk.injEq] at h
      exact h.1 ▸ hr
    · cases h
  | some ps =>
    rw [hps] at h
    exact hP.loop hR hw _ _ _ _ _ _ _ _ (by simp) (fun _ h => h) (fun _ h => h) hr hr h

theorem ClosedIn.stages (hR : R.Lawful) (hw : cn.WF) {init out : List (List Cond)} {pos neg : List Label}
    (hP : ClosedIn cn pos neg P) {g g' : R.G}
    (h : ripperStages fuel R cn hp init pos neg g = .ok (out, g')) (hi : ∀ r ∈ init, P r) : ∀ r ∈ out, P r := by
  obtain ⟨st, r2, r3, g2, dl, hs⟩ := ripperStages_ok h
  have h1 := hP.ripperGrow hR hw (fun _ h => h) (fun _ h => h) hs.grow hi
  have h2 : ∀ r ∈ r2, P r := stage2_spec (P := fun rules => ∀ r ∈ rules, P r)
    (fun rules out g g' hr ho => hP.optimize hR hw ho hr) _ _ _ _ _ h1 hs.optimize
  have h3 : ∀ r ∈ r3, P r := by
    rcases coverRemainingCn_ok hs.cover with ⟨_, rfl⟩ | ⟨st, h, rfl⟩
    · exact h2
    · exact hP.ripperGrow hR hw (fun _ h => h) (fun _ h => h) h h2
  exact fun r hr => h3 r ((bestSubsetCn_sublist hs.simplify).subset hr)

/-! ### with cn_optimize=False -/

/-- The same for growth over frames. -/
structure ClosedRows (pos0 neg0 : Frame) (P : List Cond → Prop) : Prop where
  nil : P []
  snoc : ∀ cands pos neg r c, (∀ x ∈ pos.rows, x ∈ pos0.rows) → (∀ x ∈ neg.rows, x ∈ neg0.rows) → pos.cols = pos0.cols →
    neg.cols = neg0.cols → P r → FrameUseful cands pos neg r c → P (r ++ [c])
  pre : ∀ r s, P r → s <+: r → P s

/-- Part of a frame: some of its rows, under its columns. -/
def PartOf (a d : Frame) : Prop := (∀ x ∈ a.rows, x ∈ d.rows) ∧ a.cols = d.cols

omit [Arith] [Arith.Lawful] in
theorem PartOf.rfl {d : Frame} : PartOf d d := ⟨fun _ h => h, Eq.refl _⟩
omit [Arith] [Arith.Lawful] in
theorem PartOf.trans {a b d : Frame} (h : PartOf a b) (h' : PartOf b d) : PartOf a d :=
  ⟨fun x hx => h'.1 x (h.1 x hx), h.2.trans h'.2⟩
omit [Arith] [Arith.Lawful] in
theorem partOf_dropLabels {d : Frame} {ls : List Label} : PartOf (d.dropLabels ls) d :=
  ⟨fun _ hx => dropLabels_sublist.subset hx, Eq.refl _⟩
omit [Arith.Lawful] in
theorem partOf_split {g g' : R.G} {d a b : Frame} {q : Rat} {rs : Option Int}
    (h : dfShuffledSplit R g d q rs = (a, b, g')) : PartOf a d :=
  ⟨(dfSplit_sub h).1, (dfSplit_sub h).2.2.1⟩

variable {p0 n0 : Frame}

theorem ClosedRows.grow (hP : ClosedRows p0 n0 P) {lim : Limits} {pos neg : Frame} (hps : PartOf pos p0) (hns : PartOf neg n0)
    {init r : List Cond} (hi : P init) (h : growRule fuel cands lim pos neg init = .ok r) : P r := by
  obtain ⟨r0, hc, hr⟩ := (growRule_post h).chain
  have : P r0 := by
    clear hr
    induction hc with
    | refl => exact hi
    | snoc _ hu ih => exact hP.snoc _ _ _ _ _ hps.1 hns.1 hps.2 hns.2 ih hu
  rcases hr with rfl | ⟨_, _, rfl⟩
  · exact this
  · exact hP.pre _ _ this (List.dropLast_prefix _)

omit [Arith.Lawful] in
theorem FrameReach.part {st0 st : FrameSt R} (h : FrameReach fuel R cands hp st0 st) :
    PartOf st.pos st0.pos ∧ PartOf st.neg st0.neg := by
  induction h with
  | start => exact ⟨PartOf.rfl, PartOf.rfl⟩
  | add _ ha ih =>
    refine ⟨PartOf.trans (by rw [ha.pos]; exact partOf_dropLabels) ih.1, PartOf.trans ?_ ih.2⟩
    rcases ha.neg with ⟨_, h⟩ | ⟨_, h⟩ <;> rw [h]
    · exact PartOf.rfl
    · exact partOf_dropLabels

theorem ClosedRows.irepGrow (hP : ClosedRows p0 n0 P) {init : List (List Cond)}
    {pos neg : Frame} (hps : PartOf pos p0) (hns : PartOf neg n0) {g : R.G} {st : FrameSt R}
    (h : Witt.irepGrow fuel R cands hp init pos neg g = .ok st) (hi : ∀ r ∈ init, P r) : ∀ r ∈ st.rules, P r := by
  obtain ⟨s, hs, h1, _⟩ := irepGrow_reach h
  intro r hr
  rw [h1] at hr
  rcases hs.rule r hr with h | ⟨s1, s2, hr1, ha⟩
  · exact hi r h
  · obtain ⟨a, b, c, d, g1, grown, e1, e2, e3, e4⟩ := ha.how
    have hg := hP.grow ((partOf_split e1).trans (hr1.part.1.trans hps)) ((partOf_split e2).trans (hr1.part.2.trans hns)) hP.nil e3
    rcases e4 with ⟨_, rfl⟩ | ⟨_, h4, _⟩
    · exact hg
    · exact hP.pre _ _ hg (pruneRule_prefix h4).1

omit [Arith.Lawful] in
theorem FrameRipReach.part {allPos allNeg : Frame} {st0 st : FrameRipSt R}
    (h : FrameRipReach fuel R cands hp allPos allNeg st0 st) : PartOf st.pos st0.pos ∧ PartOf st.neg st0.neg := by
  induction h with
  | start => exact ⟨PartOf.rfl, PartOf.rfl⟩
  | add _ ha ih =>
    exact ⟨PartOf.trans (by rw [ha.pos]; exact partOf_dropLabels) ih.1,
      PartOf.trans (by rw [ha.neg]; exact partOf_dropLabels) ih.2⟩

theorem ClosedRows.ripperGrow (hP : ClosedRows p0 n0 P) {init : List (List Cond)}
    {pos neg : Frame} (hps : PartOf pos p0) (hns : PartOf neg n0) {g : R.G} {st : FrameRipSt R}
    (h : Witt.ripperGrow fuel R cands hp init pos neg g = .ok st) (hi : ∀ r ∈ init, P r) : ∀ r ∈ st.rules, P r := by
  obtain ⟨s, hs, h1, _⟩ := ripperGrow_reach h
  intro r hr
  rw [h1] at hr
  rcases hs.rule r hr with h | ⟨s1, s2, hr1, ha⟩
  · exact hi r h
  · obtain ⟨ps, a, b, c, d, g1, grown, _, e1, e2, _, e3, _, e4⟩ := ha.how
    exact hP.pre _ _ (hP.grow ((partOf_split e1).trans (hr1.part.1.trans hps))
      ((partOf_split e2).trans (hr1.part.2.trans hns)) hP.nil e3) (pruneRule_prefix e4).1

theorem ClosedRows.choice (hP : ClosedRows p0 n0 P) {original : List (List Cond)} {odl : Rat} {i : Nat}
    {rule best : List Cond} {allPos allNeg a b c d : Frame} (ha : PartOf a p0) (hc : PartOf c n0)
    (hi : i < original.length) (hr : P rule)
    (h : optimizeChoiceDf fuel cands hp original odl i rule allPos allNeg a b c d = .ok best) : P best := by
  rcases optimizeChoiceDf_ok h with rfl | ⟨start, grown, hs, hg, hp⟩
  · exact hr
  · refine hP.pre _ _ (hP.grow ha hc ?_ hg) (pruneRuleOn_prefix (iReplaced_getElem _ _ _ hi) hp).1
    rcases hs with rfl | rfl
    · exact hP.nil
    · exact hr

theorem ClosedRows.loop (hP : ClosedRows p0 n0 P) {ps : Rat} {rs : Option Int}
    {original : List (List Cond)} {odl : Rat} {allPos allNeg : Frame} :
    ∀ (rest : List (List Cond)) (i : Nat) (new : List (List Cond)) (pos neg : Frame) (g : R.G)
      (out : List (List Cond)) (g' : R.G), i + rest.length ≤ original.length → PartOf pos p0 → PartOf neg n0 →
    (∀ r ∈ rest, P r) → (∀ r ∈ new, P r) →
    optimizeLoopDf fuel R cands hp ps rs original odl allPos allNeg i rest new pos neg g = .ok (out, g') → ∀ r ∈ out, P r := by
  intro rest
  induction rest with
  | nil =>
    intro i new pos neg g out g' _ _ _ _ hn h
    simp only [optimizeLoopDf, Except.ok.injEq, Prod.mk.injEq] at h
    exact h.1 ▸ hn
  | cons rule rest ih =>
    intro i new pos neg g out g' hi hps hns hr hn h
    rw [optimizeLoopDf] at h
    rcases hp1 : dfShuffledSplit R g pos (Arith.complement ps) rs with ⟨a, b, g1⟩
    rcases hp2 : dfShuffledSplit R g1 neg (Arith.complement ps) rs with ⟨c, d, g2⟩
    simp only [hp1, hp2] at h
    split at h
    · simp only [pure_eq_ok, Except.ok.injEq, Prod.mk.injEq] at h
      exact h.1 ▸ hn
    split at h
    · simp only [pure_eq_ok, Except.ok.injEq, Prod.mk.injEq] at h
      exact h.1 ▸ hn
    obtain ⟨best, hbest, h⟩ := bind_ok_iff.mp h
    have hPr := hr rule (by simp)
    simp only [List.length_cons] at hi
    have hPb := hP.choice ((partOf_split hp1).trans hps) ((partOf_split hp2).trans hns) (by omega) hPr hbest
    have hset : ∀ r ∈ new.set i (if (!condsIn best new) = true then best else rule), P r :=
      all_set hn (by split; exacts [hPb, hPr])
    obtain ⟨⟨pos', neg'⟩, hrm, h⟩ := bind_ok_iff.mp h
    simp only at h
    have hsub := rmCoveredRule_ok hrm
    split at h
    · simp only [pure_eq_ok, Except.ok.injEq, Prod.mk.injEq] at h
      exact h.1 ▸ hset
    · refine ih (i + 1) _ _ _ _ _ _ (by omega) ?_ ?_ (fun r hx => hr r (List.mem_cons_of_mem _ hx)) hset h
      · rw [hsub.1]; exact partOf_dropLabels.trans hps
      · rw [hsub.2.1]; exact partOf_dropLabels.trans hns

theorem ClosedRows.optimize {allPos allNeg : Frame} (hP : ClosedRows allPos allNeg P)
    {rs : Option Int} {rules out : List (List Cond)} {g g' : R.G}
    (h : optimizeDf fuel R cands hp rs rules allPos allNeg g = .ok (out, g')) (hr : ∀ r ∈ rules, P r) :
    ∀ r ∈ out, P r := by
  unfold optimizeDf at h
  obtain ⟨⟨mdl, odl⟩, hb, h⟩ := bind_ok_iff.mp h
  simp only at h
  cases hps : hp.pruneSize with
  | none =>
    rw [hps] at h
    simp only at h
    split at h
    · simp only [pure_eq_ok, Except.ok.injEq, Prod.mk.injEq] at h
      exact h.1 ▸ hr
    · cases h
  | some ps =>
    rw [hps] at h
    exact hP.loop _ _ _ _ _ _ _ _ (by simp) PartOf.rfl PartOf.rfl hr hr h

theorem ClosedRows.stages {old : Option (List Cond)} {init out : List (List Cond)} {pos neg : Frame}
    (hP : ClosedRows pos neg P) {g g' : R.G}
    (h : ripperStagesDf fuel R S hp old init pos neg g = .ok (out, g')) (hi : ∀ r ∈ init, P r) : ∀ r ∈ out, P r := by
  obtain ⟨st, r2, r3, c3, g2, dl, hs⟩ := ripperStagesDf_ok h
  have h1 := hP.ripperGrow PartOf.rfl PartOf.rfl hs.grow hi
  have h2 : ∀ r ∈ r2, P r := stage2Df_spec (P := fun rules => ∀ r ∈ rules, P r)
    (fun rules out g g' hr ho => hP.optimize ho hr) _ _ _ _ _ h1 hs.optimize
  have h3 : ∀ r ∈ r3, P r := by
    rcases coverRemainingDf_ok hs.cover with ⟨rfl, _⟩ | ⟨p', n', st, a1, a2, a3, a4, rfl, h, rfl⟩
    · exact h2
    · exact hP.ripperGrow ⟨fun _ h => a1.subset h, a3⟩ ⟨fun _ h => a2.subset h, a4⟩ h h2
  exact fun r hr => h3 r ((bestSubsetDf_sublist hs.simplify).subset hr)

/-! ### rules built of useful conditions -/

/-- A rule that consists of a beginning satisfying `B`, and conditions each of which was useful after the ones before it. -/
def BuiltFrom (B : List Cond → Prop) (U : List Cond → Cond → Prop) (r : List Cond) : Prop :=
  ∃ base, B base ∧ base <+: r ∧ ∀ before c, base <+: before → before ++ [c] <+: r → U before c

omit [Arith] [Arith.Lawful] in
theorem BuiltFrom.pre {B : List Cond → Prop} {U : List Cond → Cond → Prop} (hB : ∀ r s, B r → s <+: r → B s)
    {r s : List Cond} (h : BuiltFrom B U r) (hs : s <+: r) : BuiltFrom B U s := by
  obtain ⟨base, h1, h2, h3⟩ := h
  rcases List.prefix_or_prefix_of_prefix h2 hs with hb | hb
  · exact ⟨base, h1, hb, fun before c hx hy => h3 before c hx (hy.trans hs)⟩
  · refine ⟨s, hB _ _ h1 hb, List.prefix_rfl, fun before c hx hy => ?_⟩
    have a := hx.length_le
    have b := hy.length_le
    simp at b
    omega

omit [Arith] [Arith.Lawful] in
theorem BuiltFrom.snoc {B : List Cond → Prop} {U : List Cond → Cond → Prop} {r : List Cond} {c : Cond}
    (h : BuiltFrom B U r) (hu : U r c) : BuiltFrom B U (r ++ [c]) := by
  obtain ⟨base, h1, h2, h3⟩ := h
  refine ⟨base, h1, h2.trans (List.prefix_append _ _), fun before x hx hy => ?_⟩
  rcases List.prefix_concat_iff.mp hy with he | he
  · obtain ⟨rfl, he⟩ := List.append_inj' he rfl
    simp at he
    exact he ▸ hu
  · exact h3 before x hx he

end Witt
