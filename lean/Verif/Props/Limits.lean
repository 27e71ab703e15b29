import Verif.Props.Covering
import Verif.Props.PlainCovering
import Verif.Props.PlainApi
/-
C93: limits only cut learning short. A fit with tighter `max_rules`, `max_total_conds` or `min_ruleset_samples`.
-/
namespace Witt
open Spec

namespace Spec
/-- The settings `hp` are those of `hp'` except that `max_rules`, `max_total_conds` and `min_ruleset_samples` may be
tighter: a limit of `hp'` is a limit of `hp` too, at least as strict. -/
structure Tighter (hp hp' : Hyper) : Prop where
  others : { hp with lim := { hp.lim with maxRules := none, maxTotalConds := none, minRulesetSamples := none } } =
    { hp' with lim := { hp'.lim with maxRules := none, maxTotalConds := none, minRulesetSamples := none } }
  maxRules : ∀ k', hp'.lim.maxRules = some k' → ∃ k, hp.lim.maxRules = some k ∧ k ≤ k'
  maxTotalConds : ∀ k', hp'.lim.maxTotalConds = some k' → ∃ k, hp.lim.maxTotalConds = some k ∧ k ≤ k'
  minRulesetSamples : ∀ k', hp'.lim.minRulesetSamples = some k' → ∃ k, hp.lim.minRulesetSamples = some k ∧ k' ≤ k
end Spec

theorem Spec.Tighter.reached {hp hp' : Hyper} (t : Tighter hp hp') {rules : List (List Cond)} {n : Nat}
    (h : LimitReached hp'.lim rules n) : LimitReached hp.lim rules n := by
  rcases h with ⟨k, h, hk⟩ | ⟨k, h, hk⟩ | ⟨k, h, hk⟩
  · obtain ⟨j, hj, hjk⟩ := t.maxRules k h
    exact .inl ⟨j, hj, hjk.trans hk⟩
  · obtain ⟨j, hj, hjk⟩ := t.maxTotalConds k h
    exact .inr (.inl ⟨j, hj, hjk.trans hk⟩)
  · obtain ⟨j, hj, hjk⟩ := t.minRulesetSamples k h
    exact .inr (.inr ⟨j, hj, by omega⟩)

theorem Spec.Tighter.stop {hp hp' : Hyper} (t : Tighter hp hp') {rules : List (List Cond)} {p n : Nat}
    (h : stopEarly hp.lim rules p n = false) : stopEarly hp'.lim rules p n = false := by
  rw [Bool.eq_false_iff] at h ⊢
  intro h'
  exact h (stopEarly_iff.mpr (t.reached (stopEarly_iff.mp h')))

theorem Spec.Tighter.same {hp hp' : Hyper} (t : Tighter hp hp') :
    hp.pruneSize = hp'.pruneSize ∧ hp.k = hp'.k ∧ hp.dlAllowance = hp'.dlAllowance ∧ hp.alpha = hp'.alpha ∧
    hp.randomState = hp'.randomState ∧ hp.lim.maxRuleConds = hp'.lim.maxRuleConds ∧
    hp.lim.minRuleSamples = hp'.lim.minRuleSamples := by
  have h := t.others
  simp only [Hyper.mk.injEq, Limits.mk.injEq] at h
  tauto

section grow
variable [Arith] {R : PyRandom} {cn : CatNap} {hp hp' : Hyper} {fuel : Nat}

theorem growRuleCn_lim {lim lim' : Limits} (h1 : lim.maxRuleConds = lim'.maxRuleConds)
    (h2 : lim.minRuleSamples = lim'.minRuleSamples) (pos neg : List Label) (initial : List Cond) :
    growRuleCn fuel cn lim pos neg initial = growRuleCn fuel cn lim' pos neg initial := by
  have : growStepCn cn lim pos neg = growStepCn cn lim' pos neg := by
    cases lim; cases lim'
    cases h1; cases h2
    rfl
  simp only [growRuleCn, this]

theorem growRule_lim {cands : List Cond} {lim lim' : Limits} (h1 : lim.maxRuleConds = lim'.maxRuleConds)
    (h2 : lim.minRuleSamples = lim'.minRuleSamples) (pos neg : Frame) (initial : List Cond) :
    growRule fuel cands lim pos neg initial = growRule fuel cands lim' pos neg initial := by
  have : growStep cands lim pos neg = growStep cands lim' pos neg := by
    cases lim; cases lim'
    cases h1; cases h2
    rfl
  simp only [growRule, this]

omit [Arith] in
/-- A loop whose body may stop where the other's goes on returns a state the other passes through. -/
theorem pyWhile_cut {S : Type} {body body' : S → Except PyErr (Step S S)} {stop : S → Prop} {le : S → S → Prop}
    (hrefl : ∀ s, le s s) (htrans : ∀ a b c, le a b → le b c → le a c)
    (hcut : ∀ s, body s = body' s ∨ (body s = .ok (.done s) ∧ stop s))
    (hmore : ∀ s s', body' s = .ok (.more s') → le s s') (hdone : ∀ s s', body' s = .ok (.done s') → le s s') :
    ∀ n s a', pyWhile body' n s = .ok a' →
      le s a' ∧ ∃ a, pyWhile body n s = .ok a ∧ le s a ∧ le a a' ∧ (a = a' ∨ stop a) := by
  intro n
  induction n with
  | zero => intro s a' h; simp [pyWhile] at h
  | succ n ih =>
    intro s a' h
    have hle : le s a' := pyWhile_inv (I := fun t => le s t) (Q := fun t => le s t)
      (fun t t' ht hb => htrans _ _ _ ht (hmore _ _ hb)) (fun t a ht hb => htrans _ _ _ ht (hdone _ _ hb)) _ _ _ (hrefl s) h
    refine ⟨hle, ?_⟩
    rcases hcut s with he | ⟨he, hs⟩
    · rw [pyWhile_succ] at h ⊢
      rw [he]
      cases hb : body' s with
      | error e => rw [hb] at h; simp at h
      | ok st =>
        rw [hb] at h
        cases st with
        | more s' =>
          obtain ⟨h1, a, h2, h3, h4, h5⟩ := ih s' a' h
          exact ⟨a, h2, htrans _ _ _ (hmore _ _ hb) h3, h4, h5⟩
        | done b =>
          simp only [Except.ok.injEq] at h
          subst h
          exact ⟨b, rfl, hle, hrefl _, .inl rfl⟩
    · refine ⟨s, ?_, hrefl s, hle, .inr hs⟩
      rw [pyWhile_succ, he]

theorem irepStepCn_cut (t : Tighter hp hp') (st : GrowSt R) :
    irepStepCn fuel R cn hp st = irepStepCn fuel R cn hp' st ∨
    (irepStepCn fuel R cn hp st = .ok (.done st) ∧ LimitReached hp.lim st.rules (st.pos.length + st.neg.length) ∧ ¬ LimitReached hp'.lim st.rules (st.pos.length + st.neg.length)) := by
  obtain ⟨h1, h2, h3, h4, h5, h6, h7⟩ := t.same
  by_cases hp0 : st.pos = []
  · left; unfold irepStepCn; simp [hp0]
  · cases hs : stopEarly hp.lim st.rules st.pos.length st.neg.length with
    | true =>
      cases hs' : stopEarly hp'.lim st.rules st.pos.length st.neg.length with
      | false =>
        right
        refine ⟨?_, stopEarly_iff.mp hs, fun h => by rw [stopEarly_iff.mpr h] at hs'; cases hs'⟩
        unfold irepStepCn
        simp only [hp0, hs, if_false, if_true, pure_eq_ok]
      | true =>
        left
        unfold irepStepCn
        simp only [hs, hs', if_true]
    | false =>
      left
      have hs' := t.stop hs
      have hg : growRuleCn fuel cn hp.lim = growRuleCn fuel cn hp'.lim := by
        funext pos neg i; exact growRuleCn_lim h6 h7 pos neg i
      obtain ⟨a1, a2, a3, l, a5, a6⟩ := hp
      obtain ⟨b1, b2, b3, l', b5, b6⟩ := hp'
      cases h1; cases h5
      simp only at hs hs' hg
      unfold irepStepCn Hyper.irepPrune
      dsimp only
      rw [hs, hs', hg]

theorem irepStepCn_grows {st st' : GrowSt R}
    (h : irepStepCn fuel R cn hp st = .ok (.more st') ∨ irepStepCn fuel R cn hp st = .ok (.done st')) :
    st.rules <+: st'.rules := by
  rcases h with h | h
  · obtain ⟨rule, ha⟩ := irepStepCn_more h
    rw [ha.rules]; exact List.prefix_append _ _
  · have := (irepStepCn_done h).1
    rw [this]

theorem irepStep_cut {cands : List Cond} (t : Tighter hp hp') (st : FrameSt R) :
    irepStep fuel R cands hp st = irepStep fuel R cands hp' st ∨
    (irepStep fuel R cands hp st = .ok (.done st) ∧
      LimitReached hp.lim st.rules (st.pos.rows.length + st.neg.rows.length) ∧ ¬ LimitReached hp'.lim st.rules (st.pos.rows.length + st.neg.rows.length)) := by
  obtain ⟨h1, h2, h3, h4, h5, h6, h7⟩ := t.same
  by_cases hp0 : st.pos.rows = []
  · left; unfold irepStep; simp [hp0]
  · cases hs : stopEarly hp.lim st.rules st.pos.rows.length st.neg.rows.length with
    | true =>
      cases hs' : stopEarly hp'.lim st.rules st.pos.rows.length st.neg.rows.length with
      | false =>
        right
        refine ⟨?_, stopEarly_iff.mp hs, fun h => by rw [stopEarly_iff.mpr h] at hs'; cases hs'⟩
        unfold irepStep
        simp only [hp0, hs, if_false, if_true, pure_eq_ok]
      | true =>
        left
        unfold irepStep
        simp only [hs, hs', if_true]
    | false =>
      left
      have hs' := t.stop hs
      have hg : growRule fuel cands hp.lim = growRule fuel cands hp'.lim := by
        funext pos neg i; exact growRule_lim h6 h7 pos neg i
      obtain ⟨a1, a2, a3, l, a5, a6⟩ := hp
      obtain ⟨b1, b2, b3, l', b5, b6⟩ := hp'
      cases h1; cases h5
      simp only at hs hs' hg
      unfold irepStep Hyper.irepPrune
      dsimp only
      rw [hs, hs', hg]

theorem irepStep_grows {cands : List Cond} {st st' : FrameSt R}
    (h : irepStep fuel R cands hp st = .ok (.more st') ∨ irepStep fuel R cands hp st = .ok (.done st')) :
    st.rules <+: st'.rules := by
  rcases h with h | h
  · obtain ⟨rule, ha⟩ := irepStep_more h
    rw [ha.rules]; exact List.prefix_append _ _
  · have := (irepStep_done h).1
    rw [this]

theorem ripperStepCn_cut {allPos allNeg : List Label} (t : Tighter hp hp') (st : RipSt R) :
    ripperStepCn fuel R cn hp allPos allNeg st = ripperStepCn fuel R cn hp' allPos allNeg st ∨
    (ripperStepCn fuel R cn hp allPos allNeg st = .ok (.done st) ∧
      LimitReached hp.lim st.rules (st.pos.length + st.neg.length) ∧ ¬ LimitReached hp'.lim st.rules (st.pos.length + st.neg.length)) := by
  obtain ⟨h1, h2, h3, h4, h5, h6, h7⟩ := t.same
  by_cases hp0 : st.pos = [] ∨ (!Arith.within st.diff hp.dlAllowance) = true
  · left
    have hp0' := hp0
    rw [h3] at hp0'
    unfold ripperStepCn; simp only [hp0, hp0', if_true]
  · cases hs : stopEarly hp.lim st.rules st.pos.length st.neg.length with
    | true =>
      cases hs' : stopEarly hp'.lim st.rules st.pos.length st.neg.length with
      | false =>
        right
        refine ⟨?_, stopEarly_iff.mp hs, fun h => by rw [stopEarly_iff.mpr h] at hs'; cases hs'⟩
        unfold ripperStepCn
        simp only [hp0, hs, if_false, if_true, pure_eq_ok]
      | true =>
        left
        unfold ripperStepCn
        simp only [hs, hs', if_true, h3]
    | false =>
      left
      have hs' := t.stop hs
      have hg : growRuleCn fuel cn hp.lim = growRuleCn fuel cn hp'.lim := by
        funext pos neg i; exact growRuleCn_lim h6 h7 pos neg i
      obtain ⟨a1, a2, a3, l, a5, a6⟩ := hp
      obtain ⟨b1, b2, b3, l', b5, b6⟩ := hp'
      cases h1; cases h5; cases h3
      simp only at hs hs' hg
      unfold ripperStepCn
      dsimp only
      rw [hs, hs', hg]

theorem ripperStepCn_grows {allPos allNeg : List Label} {st st' : RipSt R}
    (h : ripperStepCn fuel R cn hp allPos allNeg st = .ok (.more st') ∨
      ripperStepCn fuel R cn hp allPos allNeg st = .ok (.done st')) :
    st.rules <+: st'.rules := by
  rcases h with h | h
  · obtain ⟨rule, ha⟩ := ripperStepCn_more h
    rw [ha.rules]; exact List.prefix_append _ _
  · have := (ripperStepCn_done h).1
    rw [this]

theorem ripperStep_cut {cands : List Cond} {allPos allNeg : Frame} (t : Tighter hp hp') (st : FrameRipSt R) :
    ripperStep fuel R cands hp allPos allNeg st = ripperStep fuel R cands hp' allPos allNeg st ∨
    (ripperStep fuel R cands hp allPos allNeg st = .ok (.done st) ∧
      LimitReached hp.lim st.rules (st.pos.rows.length + st.neg.rows.length) ∧ ¬ LimitReached hp'.lim st.rules (st.pos.rows.length + st.neg.rows.length)) := by
  obtain ⟨h1, h2, h3, h4, h5, h6, h7⟩ := t.same
  by_cases hp0 : st.pos.rows = [] ∨ (!Arith.within st.diff hp.dlAllowance) = true
  · left
    have hp0' := hp0
    rw [h3] at hp0'
    unfold ripperStep; simp only [hp0, hp0', if_true]
  · cases hs : stopEarly hp.lim st.rules st.pos.rows.length st.neg.rows.length with
    | true =>
      cases hs' : stopEarly hp'.lim st.rules st.pos.rows.length st.neg.rows.length with
      | false =>
        right
        refine ⟨?_, stopEarly_iff.mp hs, fun h => by rw [stopEarly_iff.mpr h] at hs'; cases hs'⟩
        unfold ripperStep
        simp only [hp0, hs, if_false, if_true, pure_eq_ok]
      | true =>
        left
        unfold ripperStep
        simp only [hs, hs', if_true, h3]
    | false =>
      left
      have hs' := t.stop hs
      have hg : growRule fuel cands hp.lim = growRule fuel cands hp'.lim := by
        funext pos neg i; exact growRule_lim h6 h7 pos neg i
      obtain ⟨a1, a2, a3, l, a5, a6⟩ := hp
      obtain ⟨b1, b2, b3, l', b5, b6⟩ := hp'
      cases h1; cases h5; cases h3
      simp only at hs hs' hg
      unfold ripperStep
      dsimp only
      rw [hs, hs', hg]

theorem ripperStep_grows {cands : List Cond} {allPos allNeg : Frame} {st st' : FrameRipSt R}
    (h : ripperStep fuel R cands hp allPos allNeg st = .ok (.more st') ∨
      ripperStep fuel R cands hp allPos allNeg st = .ok (.done st')) :
    st.rules <+: st'.rules := by
  rcases h with h | h
  · obtain ⟨rule, ha⟩ := ripperStep_more h
    rw [ha.rules]; exact List.prefix_append _ _
  · have := (ripperStep_done h).1
    rw [this]

theorem irepGrowCn_cut (t : Tighter hp hp') {init : List (List Cond)} {pos neg : List Label} {g : R.G} {a' : GrowSt R}
    (h : irepGrowCn fuel R cn hp' init pos neg g = .ok a') :
    ∃ a, irepGrowCn fuel R cn hp init pos neg g = .ok a ∧ init <+: a.rules ∧ a.rules <+: a'.rules ∧
      (a = a' ∨ (LimitReached hp.lim a.rules (a.pos.length + a.neg.length) ∧ ¬ LimitReached hp'.lim a.rules (a.pos.length + a.neg.length))) := by
  obtain ⟨_, a, h1, h2, h3, h4⟩ := pyWhile_cut (body := irepStepCn fuel R cn hp) (body' := irepStepCn fuel R cn hp')
    (stop := fun st => LimitReached hp.lim st.rules (st.pos.length + st.neg.length) ∧ ¬ LimitReached hp'.lim st.rules (st.pos.length + st.neg.length))
    (le := fun s s' => s.rules <+: s'.rules) (fun _ => List.prefix_refl _) (fun _ _ _ h1 h2 => h1.trans h2)
    (irepStepCn_cut t) (fun _ _ h => irepStepCn_grows (.inl h)) (fun _ _ h => irepStepCn_grows (.inr h)) _ _ _ h
  exact ⟨a, h1, h2, h3, h4⟩

theorem irepGrow_cut {cands : List Cond} (t : Tighter hp hp') {init : List (List Cond)} {pos neg : Frame} {g : R.G}
    {a' : FrameSt R} (h : irepGrow fuel R cands hp' init pos neg g = .ok a') :
    ∃ a, irepGrow fuel R cands hp init pos neg g = .ok a ∧ init <+: a.rules ∧ a.rules <+: a'.rules ∧
      (a = a' ∨ (LimitReached hp.lim a.rules (a.pos.rows.length + a.neg.rows.length) ∧ ¬ LimitReached hp'.lim a.rules (a.pos.rows.length + a.neg.rows.length))) := by
  obtain ⟨_, a, h1, h2, h3, h4⟩ := pyWhile_cut (body := irepStep fuel R cands hp) (body' := irepStep fuel R cands hp')
    (stop := fun st => LimitReached hp.lim st.rules (st.pos.rows.length + st.neg.rows.length) ∧ ¬ LimitReached hp'.lim st.rules (st.pos.rows.length + st.neg.rows.length))
    (le := fun s s' => s.rules <+: s'.rules) (fun _ => List.prefix_refl _) (fun _ _ _ h1 h2 => h1.trans h2)
    (irepStep_cut t) (fun _ _ h => irepStep_grows (.inl h)) (fun _ _ h => irepStep_grows (.inr h)) _ _ _ h
  exact ⟨a, h1, h2, h3, h4⟩

theorem ripperGrowCn_cut (t : Tighter hp hp') {init : List (List Cond)} {pos neg : List Label} {g : R.G} {a' : RipSt R}
    (h : ripperGrowCn fuel R cn hp' init pos neg g = .ok a') :
    ∃ a, ripperGrowCn fuel R cn hp init pos neg g = .ok a ∧ init <+: a.rules ∧ a.rules <+: a'.rules ∧
      (a = a' ∨ (LimitReached hp.lim a.rules (a.pos.length + a.neg.length) ∧ ¬ LimitReached hp'.lim a.rules (a.pos.length + a.neg.length))) := by
  obtain ⟨_, a, h1, h2, h3, h4⟩ := pyWhile_cut (body := ripperStepCn fuel R cn hp pos neg)
    (body' := ripperStepCn fuel R cn hp' pos neg)
    (stop := fun st => LimitReached hp.lim st.rules (st.pos.length + st.neg.length) ∧ ¬ LimitReached hp'.lim st.rules (st.pos.length + st.neg.length))
    (le := fun s s' => s.rules <+: s'.rules) (fun _ => List.prefix_refl _) (fun _ _ _ h1 h2 => h1.trans h2)
    (ripperStepCn_cut t) (fun _ _ h => ripperStepCn_grows (.inl h)) (fun _ _ h => ripperStepCn_grows (.inr h)) _ _ _ h
  exact ⟨a, h1, h2, h3, h4⟩

theorem ripperGrow_cut {cands : List Cond} (t : Tighter hp hp') {init : List (List Cond)} {pos neg : Frame} {g : R.G}
    {a' : FrameRipSt R} (h : ripperGrow fuel R cands hp' init pos neg g = .ok a') :
    ∃ a, ripperGrow fuel R cands hp init pos neg g = .ok a ∧ init <+: a.rules ∧ a.rules <+: a'.rules ∧
      (a = a' ∨ (LimitReached hp.lim a.rules (a.pos.rows.length + a.neg.rows.length) ∧ ¬ LimitReached hp'.lim a.rules (a.pos.rows.length + a.neg.rows.length))) := by
  obtain ⟨_, a, h1, h2, h3, h4⟩ := pyWhile_cut (body := ripperStep fuel R cands hp pos neg)
    (body' := ripperStep fuel R cands hp' pos neg)
    (stop := fun st => LimitReached hp.lim st.rules (st.pos.rows.length + st.neg.rows.length) ∧ ¬ LimitReached hp'.lim st.rules (st.pos.rows.length + st.neg.rows.length))
    (le := fun s s' => s.rules <+: s'.rules) (fun _ => List.prefix_refl _) (fun _ _ _ h1 h2 => h1.trans h2)
    (ripperStep_cut t) (fun _ _ h => ripperStep_grows (.inl h)) (fun _ _ h => ripperStep_grows (.inr h)) _ _ _ h
  exact ⟨a, h1, h2, h3, h4⟩
end grow

/-! ### the finished model -/

theorem removeDupsAux_mono {α : Type} {same : α → α → Bool} : ∀ (l l' seen : List α), l <+: l' →
    removeDupsAux same seen l <+: removeDupsAux same seen l'
  | [], l', seen, _ => by simp [removeDupsAux]
  | a :: l, [], seen, h => by simp at h
  | a :: l, b :: l', seen, h => by
    obtain ⟨rfl, h'⟩ := List.cons_prefix_cons.mp h
    unfold removeDupsAux
    split
    · exact removeDupsAux_mono l l' seen h'
    · exact List.cons_prefix_cons.mpr ⟨rfl, removeDupsAux_mono l l' _ h'⟩

theorem trimRules_mono {α : Type} {size : α → Nat} {m m' : Option Int} (hm : ∀ k', m' = some k' → ∃ k, m = some k ∧ k ≤ k')
    {l l' : List α} (h : l <+: l') : trimRules size m l <+: trimRules size m' l' := by
  cases m' with
  | none => exact (trimRules_prefix (size := size) m l).trans h
  | some k' =>
    obtain ⟨k, rfl, hk⟩ := hm k' rfl
    obtain ⟨n, h1, h2, h3, _⟩ := trimAux_spec (size := size) k l l.length (Nat.le_refl _)
    obtain ⟨n', h1', h2', _, h4'⟩ := trimAux_spec (size := size) k' l' l'.length (Nat.le_refl _)
    simp only [trimRules, h2, h2']
    have htake : l.take n = l'.take n := by
      obtain ⟨t, rfl⟩ := h
      rw [List.take_append_of_le_length h1]
    rw [htake]
    rcases h3 with rfl | h3
    · simp
    · by_cases hnn : n ≤ n'
      · exact (List.take_prefix_take_left hnn)
      · have := h4' n (by omega) (h1.trans h.length_le)
        rw [htake] at h3
        omega

/-- The rules of an IREP model whose learning phase gave `learned`. -/
def irepModelRules (hp : Hyper) (df : Frame) (cf : Feat) (pc : Val) (learned : List (List Cond)) : List Rule :=
  trimRules (fun r : Rule => r.conds.length) hp.lim.maxTotalConds
    (removeDups Rule.sameKey (learned.map (fun c => recalOf df cf pc hp.alpha { conds := c })))

theorem irepModelRules_mono {hp hp' : Hyper} (t : Tighter hp hp') {df : Frame} {cf : Feat} {pc : Val}
    {l l' : List (List Cond)} (h : l <+: l') :
    irepModelRules hp df cf pc l <+: irepModelRules hp' df cf pc l' := by
  obtain ⟨h1, h2, h3, h4, h5, h6, h7⟩ := t.same
  unfold irepModelRules
  rw [h4]
  exact trimRules_mono t.maxTotalConds (removeDupsAux_mono _ _ _ (h.map _))

section fit
variable [Arith] {R : PyRandom} {hp hp' : Hyper} {fuel : Nat} {df : Frame} {cf : Feat} {pc : Val}

omit [Arith] in
theorem recalibrate_some {rs rs1 : Ruleset} {alpha : Rat} (h : recalibrate rs df cf pc alpha = (rs1, none)) : HasFeatures df rs.rules := by
  by_contra hn
  rw [recalibrate_missing hn] at h
  simp at h

omit [Arith] in
/-- The tail of `fit` succeeds on part of the rules, with part of the result. -/
theorem irepTail (ha : 0 < hp.alpha) (hcf : cf ∈ df.cols) {learned : List (List Cond)} {possible : Option (List Cond)}
    (hf : HasFeatures df (learned.map (fun c => ({ conds := c } : Rule)))) :
    ∃ rs1, recalibrate { rules := learned.map (fun c => { conds := c }), possible := possible } df cf pc hp.alpha = (rs1, none) ∧
      (({ rs1 with rules := removeDups Rule.sameKey rs1.rules } : Ruleset).trimConds hp.lim.maxTotalConds).rules =
        irepModelRules hp df cf pc learned := by
  rw [recalibrate_ok ha hcf hf]
  refine ⟨_, rfl, ?_⟩
  simp only [Ruleset.trimConds, irepModelRules, List.map_map]
  rfl

theorem irepFit_rules (ha : 0 < hp.alpha) {init : List (List Cond)} {g g' : R.G} {m : Fitted}
    (h : irepFit fuel R hp init df cf pc g = .ok (m, g')) :
    df.rows ≠ [] ∧ cf ∈ df.cols ∧ ∃ cn st, CatNap.build df cf = .ok cn ∧
      irepGrowCn fuel R cn hp init (labelSet (posRows df cf pc).index) (labelSet (negRows df cf pc).index) g = .ok st ∧
      HasFeatures df (st.rules.map (fun c => ({ conds := c } : Rule))) ∧
      m.ruleset.rules = irepModelRules hp df cf pc st.rules ∧
      m.selected = Ruleset.selectedFeatures { rules := st.rules.map (fun c => { conds := c }) } := by
  have hcf := irepFit_class h
  obtain ⟨hne, cn, st, h1, h2, h3, h3', _, ⟨rs1, h4, _, _⟩, _⟩ := irepFit_ok h
  have hf := recalibrate_some h4
  refine ⟨hne, hcf, cn, st, h1, h2, hf, ?_, h3'⟩
  unfold irepFit at h
  simp only [hne, hcf, if_false, not_true_eq_false, h1, h2, ok_bind, h4, raiseIf, pure_eq_ok, Except.ok.injEq, Prod.mk.injEq] at h
  obtain ⟨rfl, _⟩ := h
  obtain ⟨rs2, h5, h6⟩ := irepTail (hp := hp) (pc := pc) (possible := some cn.conds) ha hcf hf
  rw [h4] at h5
  cases h5
  exact h6

theorem irepFit_of (ha : 0 < hp.alpha) {init : List (List Cond)} {g : R.G} (hne : df.rows ≠ []) (hcf : cf ∈ df.cols)
    {cn : CatNap} {st : GrowSt R} (h1 : CatNap.build df cf = .ok cn)
    (h2 : irepGrowCn fuel R cn hp init (labelSet (posRows df cf pc).index) (labelSet (negRows df cf pc).index) g = .ok st)
    (hf : HasFeatures df (st.rules.map (fun c => ({ conds := c } : Rule)))) :
    ∃ m g', irepFit fuel R hp init df cf pc g = .ok (m, g') ∧ m.ruleset.rules = irepModelRules hp df cf pc st.rules ∧
      m.selected = Ruleset.selectedFeatures { rules := st.rules.map (fun c => { conds := c }) } := by
  obtain ⟨rs1, h5, h6⟩ := irepTail (hp := hp) (pc := pc) (possible := some cn.conds) ha hcf hf
  unfold irepFit
  simp only [hne, hcf, if_false, not_true_eq_false, h1, h2, ok_bind, h5, raiseIf, pure_eq_ok]
  exact ⟨_, _, rfl, h6, rfl⟩

theorem irepFitPlain_rules {S : SetOps} (ha : 0 < hp.alpha) {old : Option (List Cond)} {init : List (List Cond)} {g g' : R.G}
    {m : Fitted} (h : irepFitPlain fuel R S hp old init df cf pc g = .ok (m, g')) :
    df.rows ≠ [] ∧ cf ∈ df.cols ∧ ∃ st,
      irepGrow fuel R (updatedConds S old (posExamples df cf pc) (negExamples df cf pc)) hp init
        (posExamples df cf pc) (negExamples df cf pc) g = .ok st ∧
      HasFeatures df (st.rules.map (fun c => ({ conds := c } : Rule))) ∧
      m.ruleset.rules = irepModelRules hp df cf pc st.rules ∧
      m.selected = Ruleset.selectedFeatures { rules := st.rules.map (fun c => { conds := c }) } := by
  obtain ⟨hne, hcf, st, h2, h3, h3', _, ⟨rs1, h4, _, _⟩, _⟩ := irepFitPlain_ok h
  have hf := recalibrate_some h4
  refine ⟨hne, hcf, st, h2, hf, ?_, h3'⟩
  unfold irepFitPlain at h
  simp only [hne, hcf, if_false, not_true_eq_false, h2, ok_bind, h4, raiseIf, pure_eq_ok, Except.ok.injEq, Prod.mk.injEq] at h
  obtain ⟨rfl, _⟩ := h
  obtain ⟨rs2, h5, h6⟩ := irepTail (hp := hp) (pc := pc)
    (possible := some (updatedConds S old (posExamples df cf pc) (negExamples df cf pc))) ha hcf hf
  rw [h4] at h5
  cases h5
  exact h6

theorem irepFitPlain_of {S : SetOps} (ha : 0 < hp.alpha) {old : Option (List Cond)} {init : List (List Cond)} {g : R.G}
    (hne : df.rows ≠ []) (hcf : cf ∈ df.cols) {st : FrameSt R}
    (h2 : irepGrow fuel R (updatedConds S old (posExamples df cf pc) (negExamples df cf pc)) hp init
        (posExamples df cf pc) (negExamples df cf pc) g = .ok st)
    (hf : HasFeatures df (st.rules.map (fun c => ({ conds := c } : Rule)))) :
    ∃ m g', irepFitPlain fuel R S hp old init df cf pc g = .ok (m, g') ∧
      m.ruleset.rules = irepModelRules hp df cf pc st.rules ∧
      m.selected = Ruleset.selectedFeatures { rules := st.rules.map (fun c => { conds := c }) } := by
  obtain ⟨rs1, h5, h6⟩ := irepTail (hp := hp) (pc := pc)
    (possible := some (updatedConds S old (posExamples df cf pc) (negExamples df cf pc))) ha hcf hf
  unfold irepFitPlain
  simp only [hne, hcf, if_false, not_true_eq_false, h2, ok_bind, h5, raiseIf, pure_eq_ok]
  exact ⟨_, _, rfl, h6, rfl⟩

omit [Arith] in
theorem learned_part {l l' : List (List Cond)} (h : l <+: l') :
    (HasFeatures df (l'.map (fun c => ({ conds := c } : Rule))) → HasFeatures df (l.map (fun c => ({ conds := c } : Rule)))) ∧
    ∀ f ∈ Ruleset.selectedFeatures { rules := l.map (fun c => { conds := c }) },
      f ∈ Ruleset.selectedFeatures { rules := l'.map (fun c => { conds := c }) } := by
  have hs : ∀ r ∈ l.map (fun c => ({ conds := c } : Rule)), r ∈ l'.map (fun c => ({ conds := c } : Rule)) :=
    fun r hr => (h.map _).subset hr
  refine ⟨fun hf r hr => hf r (hs r hr), fun f hf => ?_⟩
  obtain ⟨r, hr, hc⟩ := mem_selectedFeatures.mp hf
  exact mem_selectedFeatures.mpr ⟨r, hs r hr, hc⟩

/-- Training with tighter limits succeeds where training with looser ones does, and gives the first of its rules. -/
theorem train_tighter {a : Method} (hm : a = .irep ∨ ∃ S, a = .irepPlain S) (t : Tighter hp hp') (ha : 0 < hp.alpha)
    {old : Option (List Cond)} {init : List (List Cond)} {g g' : R.G} {m' : Fitted}
    (h : a.train fuel R hp' old init df cf pc g = .ok (m', g')) :
    ∃ m g'', a.train fuel R hp old init df cf pc g = .ok (m, g'') ∧ m.ruleset.rules <+: m'.ruleset.rules ∧
      ∀ f ∈ m.selected, f ∈ m'.selected := by
  have ha' : 0 < hp'.alpha := by rw [← t.same.2.2.2.1]; exact ha
  rcases hm with rfl | ⟨S, rfl⟩
  · obtain ⟨hne, hcf, cn, st', h1, h2, h3, h4, h5⟩ := irepFit_rules ha' h
    obtain ⟨st, h6, _, h7, _⟩ := irepGrowCn_cut t h2
    obtain ⟨m, g'', h8, h9, h10⟩ := irepFit_of ha hne hcf h1 h6 ((learned_part h7).1 h3)
    refine ⟨m, g'', h8, ?_, ?_⟩
    · rw [h9, h4]; exact irepModelRules_mono t h7
    · rw [h10, h5]; exact (learned_part (df := df) h7).2
  · obtain ⟨hne, hcf, st', h2, h3, h4, h5⟩ := irepFitPlain_rules ha' h
    obtain ⟨st, h6, _, h7, _⟩ := irepGrow_cut t h2
    obtain ⟨m, g'', h8, h9, h10⟩ := irepFitPlain_of ha hne hcf h6 ((learned_part h7).1 h3)
    refine ⟨m, g'', h8, ?_, ?_⟩
    · rw [h9, h4]; exact irepModelRules_mono t h7
    · rw [h10, h5]; exact (learned_part (df := df) h7).2
end fit

theorem transformLoop_cols {F : PyFloat} {b : Binner} {done : List Feat} : ∀ (l : List (Feat × List PStr)) {df df' : TFrame},
    transformLoop F b done l df = .ok df' → df'.cols = df.cols
  | [], df, df', h => by cases h; rfl
  | (f, labels) :: rest, df, df', h => by
    unfold transformLoop at h
    split at h
    · obtain ⟨G, _, h⟩ := bind_ok_iff.mp h
      exact (transformLoop_cols rest h).trans rfl
    · exact transformLoop_cols rest h

theorem preprocessPrediction_fewer {F : PyFloat} {X : TFrame} {cf : Feat} {b : Binner} {names : Option (List Feat)}
    {sel sel' : List Feat} (hs : ∀ f ∈ sel, f ∈ sel') {X' : TFrame} (h : preprocessPrediction F X cf b names sel' = .ok X') :
    preprocessPrediction F X cf b names sel = .ok X' ∧ ∀ f ∈ sel', f ∈ X'.cols := by
  unfold preprocessPrediction at h ⊢
  split at h
  · cases h
  · rename_i hne
    rw [if_neg hne]
    obtain ⟨df, hdf, h⟩ := bind_ok_iff.mp h
    split at h
    · cases h
    · rename_i hany
      have hall : ∀ f ∈ sel', f ∈ df.cols := by
        intro f hf
        by_contra hn
        exact hany (List.any_eq_true.mpr ⟨f, hf, by simpa using hn⟩)
      have hcols : X'.cols = df.cols := by
        unfold applyBins at h
        split at h
        · cases h; rfl
        · obtain ⟨done, _, h⟩ := bind_ok_iff.mp (show (findTransformed b df >>= fun d => transformLoop F b d b.bins df) = .ok X' from h)
          exact transformLoop_cols _ h
      refine ⟨?_, by rw [hcols]; exact hall⟩
      rw [hdf, ok_bind, if_neg]
      · exact h
      · rw [List.any_eq_true]
        rintro ⟨f, hf, hn⟩
        simp only [Bool.not_eq_true', List.contains_eq_mem, decide_eq_false_iff_not] at hn
        exact hn (hall f (hs f hf))

/-- C93. IREP, with or without the index: a fit with tighter limits succeeds whenever the one with looser limits does, and its
model is a beginning of the other's: the same first rules, in the same order, with the same calibration. -/
theorem C93_irep_fit [Arith] (a : Method) (hm : a = .irep ∨ ∃ S, a = .irepPlain S) (fuel : Nat) (R : PyRandom) (F : PyFloat)
    (P : PandasCut) (d : FitData) (init : ModelArg) (g g' : R.G) (c c' : Clf) (hp : Hyper) (t : Tighter hp c.hyper)
    (ha : 0 < hp.alpha) (h : a.fit fuel R F P d init g c = .ok g' c') :
    ∃ g'' c'' rs rs', a.fit fuel R F P d init g { c with hyper := hp } = .ok g'' c'' ∧
      c'.ruleset = some rs' ∧ c''.ruleset = some rs ∧ rs.rules <+: rs'.rules := by
  obtain ⟨df, cf, pc, b, start, m', h1, h2, h3, rfl⟩ := Method.fit_ok h
  obtain ⟨m, g'', h4, h5, _⟩ := train_tighter hm t ha h3
  obtain ⟨e, he⟩ := Method.early_of (a := a) h2
  have hc := Method.fit_completed a fuel R F P d init g { c with hyper := hp }
  simp only [he, h1, h2, h4, ok_bind, pure_eq_ok] at hc
  cases hr : a.fit fuel R F P d init g { c with hyper := hp } with
  | error e' c1 => rw [hr] at hc; cases hc
  | ok g1 c1 =>
    rw [hr] at hc
    cases hc
    exact ⟨_, _, m.ruleset, m'.ruleset, rfl, rfl, rfl, h5⟩

/-- C93. What follows for predictions: the model fitted with tighter limits answers whenever the other does, on any data, and
predicts positive only where the other does. -/
theorem C93_fewer_positives [Arith] (a : Method) (hm : a = .irep ∨ ∃ S, a = .irepPlain S) (fuel : Nat) (R : PyRandom) (F : PyFloat)
    (P : PandasCut) (d : FitData) (init : ModelArg) (g g' g'' : R.G) (c c' c'' : Clf) (hp : Hyper) (t : Tighter hp c.hyper)
    (ha : 0 < hp.alpha) (loose : a.fit fuel R F P d init g c = .ok g' c')
    (tight : a.fit fuel R F P d init g { c with hyper := hp } = .ok g'' c'') (X : TFrame) (names : Option (List Feat))
    (answers' : List Bool) (h : returned (Clf.predict F X names c') = .ok answers') :
    ∃ answers, returned (Clf.predict F X names c'') = .ok answers ∧ answers.length = answers'.length ∧
      ∀ i : Nat, answers[i]? = some true → answers'[i]? = some true := by
  obtain ⟨df, cf, pc, b, start, m', h1, h2, h3, rfl⟩ := Method.fit_ok loose
  obtain ⟨df1, cf1, pc1, b1, start1, m, h1', h2', h3', rfl⟩ := Method.fit_ok tight
  rw [h1] at h1'
  cases h1'
  rw [h2] at h2'
  cases h2'
  obtain ⟨m1, g1, h4, h5, h6⟩ := train_tighter hm t ha h3
  rw [h4] at h3'
  cases h3'
  have hr' : Ready (c.fitted m' b cf pc) m'.ruleset cf b m'.selected := ⟨rfl, rfl, ⟨_, rfl⟩, rfl, rfl, ⟨_, rfl⟩⟩
  have hr : Ready (Clf.fitted { c with hyper := hp } m b cf pc) m.ruleset cf b m.selected := ⟨rfl, rfl, ⟨_, rfl⟩, rfl, rfl, ⟨_, rfl⟩⟩
  rw [predict_eq_query, query_ready hr'] at h
  rw [predict_eq_query, query_ready hr]
  cases hp' : preprocessPrediction F X cf b names m'.selected with
  | error e => rw [hp'] at h; cases h
  | ok X' =>
    obtain ⟨hp1, hcols⟩ := preprocessPrediction_fewer h6 hp'
    have hsel := (Method.train_facts h3).2.1
    have hf' : HasFeatures X'.toFrame m'.ruleset.rules := fun r hr c hc => hcols _ (hsel _ ⟨r, hr, c, hc, rfl⟩)
    have hf : HasFeatures X'.toFrame m.ruleset.rules := fun r hr => hf' r (h5.subset hr)
    rw [hp'] at h
    rw [hp1]
    simp only [ok_bind] at h ⊢
    rw [Ruleset.predict_ok (.inr hf')] at h
    rw [Ruleset.predict_ok (.inr hf)]
    cases h
    refine ⟨_, rfl, by simp, fun i => ?_⟩
    simp only [List.getElem?_map, Option.map_eq_some_iff]
    rintro ⟨row, hrow, hany⟩
    refine ⟨row, hrow, ?_⟩
    rw [List.any_eq_true] at hany ⊢
    obtain ⟨row', hr1, hr2⟩ := hany
    refine ⟨row', hr1, ?_⟩
    rw [Bool.and_eq_true] at hr2 ⊢
    refine ⟨hr2.1, ?_⟩
    unfold rulesMet at hr2 ⊢
    rw [List.any_eq_true] at hr2 ⊢
    obtain ⟨r, hr3, hr4⟩ := hr2.2
    exact ⟨r, h5.subset hr3, hr4⟩

/-- C93. The learning phase of either classifier with the index: with tighter limits it comes back whenever it does with looser ones,
and it has learned the same first rules; it has learned all of them unless it reached a limit that the looser ones do not set there. -/
theorem C93_learning [Arith] (fuel : Nat) (R : PyRandom) (cn : CatNap) (hp hp' : Hyper) (t : Tighter hp hp')
    (init : List (List Cond)) (pos neg : List Label) (g : R.G) :
    (∀ st', irepGrowCn fuel R cn hp' init pos neg g = .ok st' → ∃ st, irepGrowCn fuel R cn hp init pos neg g = .ok st ∧
      init <+: st.rules ∧ st.rules <+: st'.rules ∧
      (st = st' ∨ (LimitReached hp.lim st.rules (st.pos.length + st.neg.length) ∧ ¬ LimitReached hp'.lim st.rules (st.pos.length + st.neg.length)))) ∧
    (∀ st', ripperGrowCn fuel R cn hp' init pos neg g = .ok st' → ∃ st, ripperGrowCn fuel R cn hp init pos neg g = .ok st ∧
      init <+: st.rules ∧ st.rules <+: st'.rules ∧
      (st = st' ∨ (LimitReached hp.lim st.rules (st.pos.length + st.neg.length) ∧ ¬ LimitReached hp'.lim st.rules (st.pos.length + st.neg.length)))) :=
  ⟨fun _ h => irepGrowCn_cut t h, fun _ h => ripperGrowCn_cut t h⟩

/-- C93. The same for `cn_optimize=False`. -/
theorem C93_plain_learning [Arith] (fuel : Nat) (R : PyRandom) (cands : List Cond) (hp hp' : Hyper) (t : Tighter hp hp')
    (init : List (List Cond)) (pos neg : Frame) (g : R.G) :
    (∀ st', irepGrow fuel R cands hp' init pos neg g = .ok st' → ∃ st, irepGrow fuel R cands hp init pos neg g = .ok st ∧
      init <+: st.rules ∧ st.rules <+: st'.rules ∧
      (st = st' ∨ (LimitReached hp.lim st.rules (st.pos.rows.length + st.neg.rows.length) ∧ ¬ LimitReached hp'.lim st.rules (st.pos.rows.length + st.neg.rows.length)))) ∧
    (∀ st', ripperGrow fuel R cands hp' init pos neg g = .ok st' → ∃ st, ripperGrow fuel R cands hp init pos neg g = .ok st ∧
      init <+: st.rules ∧ st.rules <+: st'.rules ∧
      (st = st' ∨ (LimitReached hp.lim st.rules (st.pos.rows.length + st.neg.rows.length) ∧ ¬ LimitReached hp'.lim st.rules (st.pos.rows.length + st.neg.rows.length)))) :=
  ⟨fun _ h => irepGrow_cut t h, fun _ h => ripperGrow_cut t h⟩

/-- C93. `max_rules = k`, nothing else changed: IREP and RIPPER learn exactly the first `k` rules of those learned without the
limit (all the given ones, if they are more). -/
theorem C93_max_rules [Arith] (fuel : Nat) (R : PyRandom) (cn : CatNap) (hp : Hyper) (h0 : hp.lim.maxRules = none) (k : Nat)
    (init : List (List Cond)) (pos neg : List Label) (g : R.G) :
    (∀ st', irepGrowCn fuel R cn hp init pos neg g = .ok st' →
      ∃ st, irepGrowCn fuel R cn { hp with lim := { hp.lim with maxRules := some k } } init pos neg g = .ok st ∧
        st.rules = st'.rules.take (max k init.length)) ∧
    (∀ st', ripperGrowCn fuel R cn hp init pos neg g = .ok st' →
      ∃ st, ripperGrowCn fuel R cn { hp with lim := { hp.lim with maxRules := some k } } init pos neg g = .ok st ∧
        st.rules = st'.rules.take (max k init.length)) := by
  obtain ⟨hpk, hk⟩ : ∃ hpk : Hyper, hpk = { hp with lim := { hp.lim with maxRules := some (k : Int) } } := ⟨_, rfl⟩
  rw [← hk]
  have hkr : hpk.lim.maxRules = some (k : Int) := by rw [hk]
  have t : Tighter hpk hp := by
    rw [hk]
    exact ⟨rfl, fun k' h => (by rw [h0] at h; cases h), fun k' h => ⟨k', h, le_refl _⟩, fun k' h => ⟨k', h, le_refl _⟩⟩
  have hlim : ∀ (rules : List (List Cond)) (n : Nat), LimitReached hpk.lim rules n → ¬ LimitReached hp.lim rules n →
      k ≤ rules.length := by
    intro rules n h hn
    rw [hk] at h
    rcases h with ⟨j, hj, hjk⟩ | h | h
    · cases hj
      exact_mod_cast hjk
    · exact absurd (Or.inr (Or.inl h)) hn
    · exact absurd (Or.inr (Or.inr h)) hn
  have hgo : ∀ (rules : List (List Cond)) (p n : Nat), stopEarly hpk.lim rules p n = false → rules.length < k := by
    intro rules p n h
    by_contra hn
    rw [Bool.eq_false_iff] at h
    exact h (stopEarly_iff.mpr (.inl ⟨k, hkr, by exact_mod_cast Nat.le_of_not_lt hn⟩))
  have hend : ∀ (l l' : List (List Cond)), init <+: l → l <+: l' → l.length ≤ max k init.length → (l = l' ∨ k ≤ l.length) →
      l = l'.take (max k init.length) := by
    intro l l' h1 h2 h3 h4
    rcases h4 with rfl | h4
    · rw [List.take_of_length_le h3]
    · have : l.length = max k init.length := le_antisymm h3 (max_le h4 h1.length_le)
      rw [← this]
      exact List.prefix_iff_eq_take.mp h2
  constructor
  · intro st' h
    obtain ⟨st, h1, h2, h3, h4⟩ := irepGrowCn_cut t h
    refine ⟨st, h1, hend _ _ h2 h3 ?_ (h4.imp (fun e => by rw [e]) (fun h => hlim _ _ h.1 h.2))⟩
    refine pyWhile_inv (I := fun s : GrowSt R => s.rules.length ≤ max k init.length)
      (Q := fun s => s.rules.length ≤ max k init.length) ?_ ?_ _ _ _ (le_max_right _ _) h1
    · intro s s' _ hb
      obtain ⟨rule, ha⟩ := irepStepCn_more hb
      rw [ha.rules, List.length_append]
      have := hgo _ _ _ ha.go
      exact (show s.rules.length + 1 ≤ k by omega).trans (le_max_left _ _)
    · intro s s' hI hb
      rw [(irepStepCn_done hb).1]; exact hI
  · intro st' h
    obtain ⟨st, h1, h2, h3, h4⟩ := ripperGrowCn_cut t h
    refine ⟨st, h1, hend _ _ h2 h3 ?_ (h4.imp (fun e => by rw [e]) (fun h => hlim _ _ h.1 h.2))⟩
    refine pyWhile_inv (I := fun s : RipSt R => s.rules.length ≤ max k init.length)
      (Q := fun s => s.rules.length ≤ max k init.length) ?_ ?_ _ _ _ (le_max_right _ _) h1
    · intro s s' _ hb
      obtain ⟨rule, ha⟩ := ripperStepCn_more hb
      rw [ha.rules, List.length_append]
      have := hgo _ _ _ ha.go
      exact (show s.rules.length + 1 ≤ k by omega).trans (le_max_left _ _)
    · intro s s' hI hb
      rw [(ripperStepCn_done hb).1]; exact hI

/-- C93. `max_rules = k`, nothing else changed: with `cn_optimize=False` too IREP and RIPPER learn exactly the first `k` rules of those learned without the
limit (all the given ones, if they are more). -/
theorem C93_plain_max_rules [Arith] (fuel : Nat) (R : PyRandom) (cands : List Cond) (hp : Hyper) (h0 : hp.lim.maxRules = none) (k : Nat)
    (init : List (List Cond)) (pos neg : Frame) (g : R.G) :
    (∀ st', irepGrow fuel R cands hp init pos neg g = .ok st' →
      ∃ st, irepGrow fuel R cands { hp with lim := { hp.lim with maxRules := some k } } init pos neg g = .ok st ∧
        st.rules = st'.rules.take (max k init.length)) ∧
    (∀ st', ripperGrow fuel R cands hp init pos neg g = .ok st' →
      ∃ st, ripperGrow fuel R cands { hp with lim := { hp.lim with maxRules := some k } } init pos neg g = .ok st ∧
        st.rules = st'.rules.take (max k init.length)) := by
  obtain ⟨hpk, hk⟩ : ∃ hpk : Hyper, hpk = { hp with lim := { hp.lim with maxRules := some (k : Int) } } := ⟨_, rfl⟩
  rw [← hk]
  have hkr : hpk.lim.maxRules = some (k : Int) := by rw [hk]
  have t : Tighter hpk hp := by
    rw [hk]
    exact ⟨rfl, fun k' h => (by rw [h0] at h; cases h), fun k' h => ⟨k', h, le_refl _⟩, fun k' h => ⟨k', h, le_refl _⟩⟩
  have hlim : ∀ (rules : List (List Cond)) (n : Nat), LimitReached hpk.lim rules n → ¬ LimitReached hp.lim rules n →
      k ≤ rules.length := by
    intro rules n h hn
    rw [hk] at h
    rcases h with ⟨j, hj, hjk⟩ | h | h
    · cases hj
      exact_mod_cast hjk
    · exact absurd (Or.inr (Or.inl h)) hn
    · exact absurd (Or.inr (Or.inr h)) hn
  have hgo : ∀ (rules : List (List Cond)) (p n : Nat), stopEarly hpk.lim rules p n = false → rules.length < k := by
    intro rules p n h
    by_contra hn
    rw [Bool.eq_false_iff] at h
    exact h (stopEarly_iff.mpr (.inl ⟨k, hkr, by exact_mod_cast Nat.le_of_not_lt hn⟩))
  have hend : ∀ (l l' : List (List Cond)), init <+: l → l <+: l' → l.length ≤ max k init.length → (l = l' ∨ k ≤ l.length) →
      l = l'.take (max k init.length) := by
    intro l l' h1 h2 h3 h4
    rcases h4 with rfl | h4
    · rw [List.take_of_length_le h3]
    · have : l.length = max k init.length := le_antisymm h3 (max_le h4 h1.length_le)
      rw [← this]
      exact List.prefix_iff_eq_take.mp h2
  constructor
  · intro st' h
    obtain ⟨st, h1, h2, h3, h4⟩ := irepGrow_cut t h
    refine ⟨st, h1, hend _ _ h2 h3 ?_ (h4.imp (fun e => by rw [e]) (fun h => hlim _ _ h.1 h.2))⟩
    refine pyWhile_inv (I := fun s : FrameSt R => s.rules.length ≤ max k init.length)
      (Q := fun s => s.rules.length ≤ max k init.length) ?_ ?_ _ _ _ (le_max_right _ _) h1
    · intro s s' _ hb
      obtain ⟨rule, ha⟩ := irepStep_more hb
      rw [ha.rules, List.length_append]
      have := hgo _ _ _ ha.go
      exact (show s.rules.length + 1 ≤ k by omega).trans (le_max_left _ _)
    · intro s s' hI hb
      rw [(irepStep_done hb).1]; exact hI
  · intro st' h
    obtain ⟨st, h1, h2, h3, h4⟩ := ripperGrow_cut t h
    refine ⟨st, h1, hend _ _ h2 h3 ?_ (h4.imp (fun e => by rw [e]) (fun h => hlim _ _ h.1 h.2))⟩
    refine pyWhile_inv (I := fun s : FrameRipSt R => s.rules.length ≤ max k init.length)
      (Q := fun s => s.rules.length ≤ max k init.length) ?_ ?_ _ _ _ (le_max_right _ _) h1
    · intro s s' _ hb
      obtain ⟨rule, ha⟩ := ripperStep_more hb
      rw [ha.rules, List.length_append]
      have := hgo _ _ _ ha.go
      exact (show s.rules.length + 1 ≤ k by omega).trans (le_max_left _ _)
    · intro s s' hI hb
      rw [(ripperStep_done hb).1]; exact hI

namespace Demo
/-- The settings of a classifier with `max_rules=1`. -/
def oneRule (c : Clf) : Clf := { c with hyper := { c.hyper with lim := { c.hyper.lim with maxRules := some 1 } } }
theorem oneRule_tighter : Tighter (oneRule newIrep).hyper newIrep.hyper :=
  ⟨rfl, fun k' h => (by cases h), fun k' h => ⟨k', h, le_refl _⟩, fun k' h => ⟨k', h, le_refl _⟩⟩
/-- The conditions of a classifier's rules. -/
def rulesOf (c : Clf) : Option (List (List Cond)) := c.ruleset.map (fun rs => rs.rules.map Rule.conds)
/-- Six rows for which one more rule changes what RIPPER makes of the first one. -/
def six : TFrame :=
  { Frame.ofTable [fa, fb, fc] [(0, [vy, vx, vy]), (1, [vy, vx, vx]), (2, [vy, vy, vy]), (3, [vx, vx, vx]), (4, [vx, vy, vx]),
      (5, [vy, vx, vy])] with kind := fun _ => .text }
def sixData : FitData := { X := six, y := some (.list [vn, vn, vn, vn, vp, vp]), posClass := some vp }
end Demo

/-- The hypotheses of `C93_irep_fit` and `C93_fewer_positives` hold of exclusive or with `max_rules=1`: two rules without the
limit, the first of them with it. -/
example : Tighter (Demo.oneRule Demo.newIrep).hyper Demo.newIrep.hyper ∧ 0 < (Demo.oneRule Demo.newIrep).hyper.alpha ∧
    Demo.rulesOf (after (Clf.irepFit 5 Demo.R0 Demo.F Demo.P Demo.xorData .nothing () Demo.newIrep)) =
      some [[⟨Demo.fa, Demo.vx⟩, ⟨Demo.fb, Demo.vx⟩], [⟨Demo.fa, Demo.vy⟩, ⟨Demo.fb, Demo.vy⟩]] ∧
    Demo.rulesOf (after (Clf.irepFit 5 Demo.R0 Demo.F Demo.P Demo.xorData .nothing () (Demo.oneRule Demo.newIrep))) =
      some [[⟨Demo.fa, Demo.vx⟩, ⟨Demo.fb, Demo.vx⟩]] ∧
    returned (Clf.predict Demo.F Demo.xorX none (after (Clf.irepFit 5 Demo.R0 Demo.F Demo.P Demo.xorData .nothing () Demo.newIrep))) =
      .ok [true, true, false, false] ∧
    returned (Clf.predict Demo.F Demo.xorX none
      (after (Clf.irepFit 5 Demo.R0 Demo.F Demo.P Demo.xorData .nothing () (Demo.oneRule Demo.newIrep)))) =
      .ok [true, false, false, false] := by
  refine ⟨Demo.oneRule_tighter, ?_, ?_, ?_, ?_, ?_⟩ <;> decide +kernel

/-- C93 does not hold of whole RIPPER fits: with `max_rules=1` the model is not the first rule of the model without the limit,
since the later rules take part in optimising the earlier ones. -/
theorem C93_refuted_ripper :
    Demo.rulesOf (after (Clf.ripperFit 9 Demo.R1 Demo.F Demo.P Demo.sixData .nothing (0 : Nat) Demo.newRipper)) =
      some [[⟨Demo.fa, Demo.vy⟩]] ∧
    Demo.rulesOf (after (Clf.ripperFit 9 Demo.R1 Demo.F Demo.P Demo.sixData .nothing (0 : Nat) (Demo.oneRule Demo.newRipper))) =
      some [[⟨Demo.fa, Demo.vy⟩, ⟨Demo.fb, Demo.vx⟩]] := by
  refine ⟨?_, ?_⟩ <;> decide +kernel

end Witt
