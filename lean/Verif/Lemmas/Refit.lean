import Verif.Lemmas.Unpruned
import Verif.Lemmas.PlainIrep
import Verif.Lemmas.Fit
import Verif.Props.Fit
import Verif.Props.ProbaApi
/-
IREP from an initial model: the loop never looks at the rules it starts from, except to count them.
-/
namespace Witt
open Spec

/-! ### removing duplicates, trimming -/

section
variable {α : Type} {same : α → α → Bool}

/-- Rules already seen only filter what is kept of the rest. -/
theorem removeDupsAux_seen (hsym : ∀ a b, same a b = true → same b a = true)
    (htr : ∀ a b c, same a b = true → same b c = true → same a c = true) (pre : List α) : ∀ (l seen seen' : List α),
    (∀ s, s ∈ seen' ↔ s ∈ pre ∨ s ∈ seen ∧ ∀ p ∈ pre, same p s = false) →
    removeDupsAux same seen' l = (removeDupsAux same seen l).filter (fun r => !pre.any (fun p => same p r))
  | [], _, _, _ => rfl
  | a :: l, seen, seen', h => by
    have hpre : ∀ p ∈ pre, p ∈ seen' := fun p hp => (h p).mpr (Or.inl hp)
    by_cases hp : pre.any (fun p => same p a) = true
    · obtain ⟨p, hpm, hpa⟩ := List.any_eq_true.mp hp
      have hs' : seen'.any (fun s => same s a) = true := List.any_eq_true.mpr ⟨p, hpre p hpm, hpa⟩
      rw [removeDupsAux, if_pos hs', removeDupsAux]
      split
      · exact removeDupsAux_seen hsym htr pre l seen seen' h
      · rw [List.filter_cons_of_neg (by simp [hp])]
        refine removeDupsAux_seen hsym htr pre l (a :: seen) seen' ?_
        intro s
        rw [h s]
        constructor
        · rintro (h1 | h1)
          · exact Or.inl h1
          · exact Or.inr ⟨List.mem_cons_of_mem _ h1.1, h1.2⟩
        · rintro (h1 | ⟨h1, h2⟩)
          · exact Or.inl h1
          · rcases List.mem_cons.mp h1 with rfl | h1
            · rw [h2 p hpm] at hpa; cases hpa
            · exact Or.inr ⟨h1, h2⟩
    · have hp' : ∀ p ∈ pre, same p a = false := by
        intro p hpm
        cases hh : same p a
        · rfl
        · exact absurd (List.any_eq_true.mpr ⟨p, hpm, hh⟩) hp
      have hiff : seen'.any (fun s => same s a) = seen.any (fun s => same s a) := by
        rw [Bool.eq_iff_iff]
        simp only [List.any_eq_true]
        constructor
        · rintro ⟨s, hs, hsa⟩
          rcases (h s).mp hs with h1 | h1
          · rw [hp' s h1] at hsa; cases hsa
          · exact ⟨s, h1.1, hsa⟩
        · rintro ⟨s, hs, hsa⟩
          refine ⟨s, (h s).mpr (Or.inr ⟨hs, ?_⟩), hsa⟩
          intro p hpm
          cases hh : same p s
          · rfl
          · have := htr _ _ _ hh hsa
            rw [hp' p hpm] at this; cases this
      rw [removeDupsAux, removeDupsAux, hiff]
      split
      · exact removeDupsAux_seen hsym htr pre l seen seen' h
      · rw [List.filter_cons_of_pos (by simpa using hp)]
        congr 1
        refine removeDupsAux_seen hsym htr pre l (a :: seen) (a :: seen') ?_
        intro s
        simp only [List.mem_cons, h s]
        constructor
        · rintro (rfl | h1 | h1)
          · exact Or.inr ⟨Or.inl rfl, hp'⟩
          · exact Or.inl h1
          · exact Or.inr ⟨Or.inr h1.1, h1.2⟩
        · rintro (h1 | ⟨rfl | h1, h2⟩)
          · exact Or.inr (Or.inl h1)
          · exact Or.inl rfl
          · exact Or.inr (Or.inr ⟨h1, h2⟩)

theorem removeDups_start (hsym : ∀ a b, same a b = true → same b a = true)
    (htr : ∀ a b c, same a b = true → same b c = true → same a c = true) {pre : List α}
    (hp : pre.Pairwise (fun a b => same a b = false)) (l : List α) :
    removeDups same (pre ++ l) = pre ++ (removeDups same l).filter (fun r => !pre.any (fun p => same p r)) := by
  unfold removeDups
  rw [removeDupsAux_prefix pre l [] (by simp) hp]
  congr 1
  exact removeDupsAux_seen hsym htr pre l [] _ (by simp)

theorem removeDupsAux_append : ∀ (q r seen : List α),
    removeDupsAux same seen q <+: removeDupsAux same seen (q ++ r)
  | [], _, _ => List.nil_prefix
  | a :: q, r, seen => by
    rw [List.cons_append, removeDupsAux, removeDupsAux]
    split
    · exact removeDupsAux_append q r seen
    · exact List.cons_prefix_cons.mpr ⟨rfl, removeDupsAux_append q r (a :: seen)⟩

end

/-- Trimming a prefix that still contains what trimming the whole leaves. -/
theorem trimRules_between {α : Type} {size : α → Nat} (m : Option Int) {D X : List α} (hX : X <+: D)
    (ht : trimRules size m D <+: X) : trimRules size m X = trimRules size m D := by
  cases m with
  | none => exact (List.IsPrefix.eq_of_length_le hX (List.IsPrefix.length_le ht))
  | some m =>
    simp only [trimRules] at ht ⊢
    obtain ⟨k, hk, he, h1, h2⟩ := trimAux_spec (size := size) m D D.length (Nat.le_refl _)
    obtain ⟨k', hk', he', h1', h2'⟩ := trimAux_spec (size := size) m X X.length (Nat.le_refl _)
    rw [he] at ht ⊢
    rw [he']
    have hXD : X.length ≤ D.length := hX.length_le
    have hXt : X = D.take X.length := List.prefix_iff_eq_take.mp hX
    have hkX : k ≤ X.length := by
      have := ht.length_le
      rw [List.length_take] at this
      omega
    have htake : ∀ j, j ≤ X.length → X.take j = D.take j := by
      intro j hj
      rw [hXt, List.take_take]
      congr 1
      omega
    rcases Nat.lt_trichotomy k k' with hlt | rfl | hlt
    · exfalso
      have h3 := h2 k' hlt (by omega)
      rcases h1' with h4 | h4
      · omega
      · rw [htake k' hk'] at h4; omega
    · exact htake k hk'
    · exfalso
      have h3 := h2' k hlt hkX
      rcases h1 with h4 | h4
      · omega
      · rw [htake k hkX] at h3; omega

/-- Starting again from what was left, with a prefix of what was learned, leaves the same. -/
theorem finish_again (m : Option Int) {l q : List (List Cond)} (hq : q <+: l) :
    finish m (finish m l ++ q) = finish m l := by
  have hsym : ∀ a b, condsSameKey a b = true → condsSameKey b a = true := fun _ _ => condsSameKey_symm
  have htr : ∀ a b c, condsSameKey a b = true → condsSameKey b c = true → condsSameKey a c = true :=
    fun _ _ _ => condsSameKey_trans
  have ht : finish m l <+: removeDups condsSameKey l := trimRules_prefix m _
  have hqD : removeDups condsSameKey q <+: removeDups condsSameKey l := by
    obtain ⟨r, rfl⟩ := hq
    exact removeDupsAux_append q r []
  have hX : removeDups condsSameKey (finish m l ++ q) <+: removeDups condsSameKey l := by
    rw [removeDups_start hsym htr (finish_pairwise m l)]
    rcases List.prefix_or_prefix_of_prefix hqD ht with h | h
    · have : (removeDups condsSameKey q).filter (fun r => !(finish m l).any (fun p => condsSameKey p r)) = [] := by
        rw [List.filter_eq_nil_iff]
        intro r hr
        simp only [Bool.not_eq_true', Bool.not_eq_false, List.any_eq_true]
        exact ⟨r, h.subset hr, condsSameKey_refl r⟩
      rw [this, List.append_nil]
      exact ht
    · obtain ⟨u, hu⟩ := h
      have hpw := removeDups_pairwise (same := condsSameKey) q
      rw [← hu, List.pairwise_append] at hpw
      have : (removeDups condsSameKey q).filter (fun r => !(finish m l).any (fun p => condsSameKey p r)) = u := by
        rw [← hu, List.filter_append]
        have h1 : (finish m l).filter (fun r => !(finish m l).any (fun p => condsSameKey p r)) = [] := by
          rw [List.filter_eq_nil_iff]
          intro r hr
          simp only [Bool.not_eq_true', Bool.not_eq_false, List.any_eq_true]
          exact ⟨r, hr, condsSameKey_refl r⟩
        rw [h1, List.nil_append, List.filter_eq_self]
        intro r hr
        simp only [Bool.not_eq_true', List.any_eq_false, Bool.not_eq_true]
        exact fun p hp => hpw.2.2 p hp r hr
      rw [this, hu]
      exact hqD
  have htX : finish m l <+: removeDups condsSameKey (finish m l ++ q) := by
    rw [removeDups_start hsym htr (finish_pairwise m l)]
    exact List.prefix_append _ _
  exact trimRules_between (size := List.length) m hX htX

/-! ### loops -/

/-- What a loop body gives, with states changed by `f`. -/
def Step.map {S : Type} (f : S → S) : Step S S → Step S S
  | .more s => .more (f s)
  | .done s => .done (f s)

theorem pyWhile_shift {S : Type} {body : S → Except PyErr (Step S S)} {f : S → S}
    (h : ∀ s, body (f s) = (body s).map (Step.map f)) : ∀ n s, pyWhile body n (f s) = (pyWhile body n s).map f := by
  intro n
  induction n with
  | zero => intro s; rfl
  | succ n ih =>
    intro s
    rw [pyWhile_succ, pyWhile_succ, h s]
    cases body s with
    | error e => rfl
    | ok st => cases st with
      | more s' => exact ih s'
      | done a => rfl

/-- A shifted loop that may stop earlier. -/
theorem pyWhile_shift_early {S : Type} {body : S → Except PyErr (Step S S)} {f : S → S} {le : S → S → Prop}
    (hrefl : ∀ s, le s s) (htrans : ∀ a b c, le a b → le b c → le a c)
    (hmore : ∀ s s', body s = .ok (.more s') → le s s') (hdone : ∀ s s', body s = .ok (.done s') → le s s')
    (h : ∀ s, body (f s) = (body s).map (Step.map f) ∨ body (f s) = .ok (.done (f s))) :
    ∀ n s s1, pyWhile body n s = .ok s1 → ∃ s2, pyWhile body n (f s) = .ok (f s2) ∧ le s s2 ∧ le s2 s1 := by
  have hup : ∀ n s s1, pyWhile body n s = .ok s1 → le s s1 := by
    intro n s s1 hs
    exact pyWhile_inv (I := fun s' => le s s') (Q := fun a => le s a)
      (fun a b ha hb => htrans _ _ _ ha (hmore a b hb)) (fun a b ha hb => htrans _ _ _ ha (hdone a b hb)) n s s1 (hrefl s) hs
  intro n
  induction n with
  | zero => intro s s1 hs; simp [pyWhile] at hs
  | succ n ih =>
    intro s s1 hs
    rcases h s with hb | hb
    · rw [pyWhile_succ] at hs ⊢
      rw [hb]
      cases hbs : body s with
      | error e => rw [hbs] at hs; cases hs
      | ok st => cases st with
        | more s' =>
          rw [hbs] at hs
          obtain ⟨s2, h1, h2, h3⟩ := ih s' s1 hs
          exact ⟨s2, h1, htrans _ _ _ (hmore s s' hbs) h2, h3⟩
        | done a =>
          rw [hbs] at hs
          cases hs
          exact ⟨s1, rfl, hdone s s1 hbs, hrefl s1⟩
    · refine ⟨s, ?_, hrefl s, hup _ _ _ hs⟩
      rw [pyWhile_succ, hb]

/-! ### IREP -/
variable [Arith] {R : PyRandom}

/-- The limits that count rules, and so see the initial model. -/
def Limits.Unlimited (lim : Limits) : Prop := lim.maxRules = none ∧ lim.maxTotalConds = none

omit [Arith] in
theorem stopEarly_shift {lim : Limits} (hl : lim.Unlimited) (a b : List (List Cond)) (p n : Nat) :
    stopEarly lim a p n = stopEarly lim b p n := by
  unfold stopEarly
  rw [hl.1, hl.2]
  rfl

omit [Arith] in
theorem atLeast_mono {x y : Nat} (m : Option Int) (hxy : x ≤ y) (h : atLeast x m = true) : atLeast y m = true := by
  cases m with
  | none => exact h
  | some m =>
    simp only [atLeast, decide_eq_true_eq] at h ⊢
    omega

omit [Arith] in
theorem stopEarly_more {lim : Limits} (t a : List (List Cond)) (p n : Nat) (h : stopEarly lim a p n = true) :
    stopEarly lim (t ++ a) p n = true := by
  have h1 : a.length ≤ (t ++ a).length := by simp
  have h2 : countConds a ≤ countConds (t ++ a) := by simp [countConds]
  unfold stopEarly at *
  simp only [Bool.or_eq_true] at h ⊢
  rcases h with (h | h) | h
  · exact Or.inl (Or.inl (atLeast_mono _ h1 h))
  · exact Or.inl (Or.inr (atLeast_mono _ h2 h))
  · exact Or.inr h

/-- A state with rules put in front. -/
def GrowSt.from (t : List (List Cond)) (st : GrowSt R) : GrowSt R := { st with rules := t ++ st.rules }
/-- A state with rules put in front. -/
def FrameSt.from (t : List (List Cond)) (st : FrameSt R) : FrameSt R := { st with rules := t ++ st.rules }

theorem irepStepCn_shift (fuel : Nat) (cn : CatNap) (hp : Hyper) (t : List (List Cond)) (st : GrowSt R)
    (h : stopEarly hp.lim (t ++ st.rules) st.pos.length st.neg.length = stopEarly hp.lim st.rules st.pos.length st.neg.length) :
    irepStepCn fuel R cn hp (st.from t) = (irepStepCn fuel R cn hp st).map (Step.map (GrowSt.from t)) := by
  obtain ⟨rules, pos, neg, g⟩ := st
  unfold irepStepCn GrowSt.from
  dsimp only at h ⊢
  rw [h]
  split
  · rfl
  split
  · rfl
  generalize randomSplit R g pos (Arith.complement hp.irepPrune) hp.randomState = q1
  obtain ⟨pg, pp, g1⟩ := q1
  dsimp only
  generalize randomSplit R g1 neg (Arith.complement hp.irepPrune) hp.randomState = q2
  obtain ⟨ng, np, g2⟩ := q2
  dsimp only
  cases growRuleCn fuel cn hp.lim pg ng [] with
  | error e => rfl
  | ok grown =>
    simp only [ok_bind]
    split
    · simp [Except.map, Step.map, pure_eq_ok]
    cases pruneRule (irepMetricCn cn pp np) grown with
    | error e => rfl
    | ok o =>
      cases o with
      | none => rfl
      | some pruned =>
        simp only [ok_bind]
        cases rulePrecisionCn cn pruned pp np with
        | none => rfl
        | some q =>
          dsimp only
          split
          · rfl
          · simp [Except.map, Step.map, pure_eq_ok]

theorem irepStepCn_early (fuel : Nat) (cn : CatNap) (hp : Hyper) (st : GrowSt R)
    (h : stopEarly hp.lim st.rules st.pos.length st.neg.length = true) : irepStepCn fuel R cn hp st = .ok (.done st) := by
  unfold irepStepCn
  rw [h]
  split
  · rfl
  · rfl

theorem irepStepCn_prefix {fuel : Nat} {cn : CatNap} {hp : Hyper} {s s' : GrowSt R}
    (h : irepStepCn fuel R cn hp s = .ok (.more s') ∨ irepStepCn fuel R cn hp s = .ok (.done s')) : s.rules <+: s'.rules := by
  obtain ⟨rules, pos, neg, g⟩ := s
  unfold irepStepCn at h
  dsimp only at h ⊢
  split at h
  · rcases h with h | h <;> cases h; exact List.prefix_refl _
  split at h
  · rcases h with h | h <;> cases h; exact List.prefix_refl _
  generalize randomSplit R g pos (Arith.complement hp.irepPrune) hp.randomState = q1 at h
  obtain ⟨pg, pp, g1⟩ := q1
  dsimp only at h
  generalize randomSplit R g1 neg (Arith.complement hp.irepPrune) hp.randomState = q2 at h
  obtain ⟨ng, np, g2⟩ := q2
  dsimp only at h
  cases hgr : growRuleCn fuel cn hp.lim pg ng [] with
  | error e => rw [hgr] at h; rcases h with h | h <;> cases h
  | ok grown =>
    rw [hgr] at h
    simp only [ok_bind] at h
    split at h
    · rcases h with h | h <;> cases h; exact List.prefix_append _ _
    cases hpr : pruneRule (irepMetricCn cn pp np) grown with
    | error e => rw [hpr] at h; rcases h with h | h <;> cases h
    | ok o =>
      rw [hpr] at h
      cases o with
      | none => rcases h with h | h <;> cases h
      | some pruned =>
        simp only [ok_bind] at h
        cases hq : rulePrecisionCn cn pruned pp np with
        | none => rw [hq] at h; rcases h with h | h <;> cases h; exact List.prefix_refl _
        | some q =>
          rw [hq] at h
          dsimp only at h
          split at h
          · rcases h with h | h <;> cases h; exact List.prefix_refl _
          · rcases h with h | h <;> cases h; exact List.prefix_append _ _

theorem irepGrowCn_from (fuel : Nat) (cn : CatNap) (hp : Hyper) (hl : hp.lim.Unlimited) (t : List (List Cond))
    (pos neg : List Label) (g : R.G) :
    irepGrowCn fuel R cn hp t pos neg g = (irepGrowCn fuel R cn hp [] pos neg g).map (GrowSt.from t) := by
  have := pyWhile_shift (f := GrowSt.from t) (body := irepStepCn fuel R cn hp)
    (fun s => irepStepCn_shift fuel cn hp t s (stopEarly_shift hl _ _ _ _)) fuel { rules := [], pos := pos, neg := neg, g := g }
  unfold irepGrowCn
  rw [← this]
  simp [GrowSt.from]

theorem irepGrowCn_early (fuel : Nat) (cn : CatNap) (hp : Hyper) (t : List (List Cond)) (pos neg : List Label) (g : R.G)
    {st : GrowSt R} (h : irepGrowCn fuel R cn hp [] pos neg g = .ok st) :
    ∃ st' : GrowSt R, irepGrowCn fuel R cn hp t pos neg g = .ok (st'.from t) ∧ st'.rules <+: st.rules := by
  obtain ⟨s2, h1, _, h3⟩ := pyWhile_shift_early (f := GrowSt.from t) (body := irepStepCn fuel R cn hp)
    (le := fun a b => a.rules <+: b.rules) (fun s => List.prefix_refl _) (fun a b c => List.IsPrefix.trans)
    (fun s s' hs => irepStepCn_prefix (Or.inl hs)) (fun s s' hs => irepStepCn_prefix (Or.inr hs))
    (fun s => by
      by_cases hh : stopEarly hp.lim (t ++ s.rules) s.pos.length s.neg.length = stopEarly hp.lim s.rules s.pos.length s.neg.length
      · exact Or.inl (irepStepCn_shift fuel cn hp t s hh)
      · right
        apply irepStepCn_early
        cases h2 : stopEarly hp.lim s.rules s.pos.length s.neg.length
        · rw [h2] at hh
          exact Bool.eq_true_of_not_eq_false hh
        · exact stopEarly_more t _ _ _ h2) fuel _ st h
  refine ⟨s2, ?_, h3⟩
  unfold irepGrowCn
  rw [← h1]
  simp [GrowSt.from]

theorem irepStep_shift (fuel : Nat) (cands : List Cond) (hp : Hyper) (t : List (List Cond)) (st : FrameSt R)
    (h : stopEarly hp.lim (t ++ st.rules) st.pos.rows.length st.neg.rows.length =
      stopEarly hp.lim st.rules st.pos.rows.length st.neg.rows.length) :
    irepStep fuel R cands hp (st.from t) = (irepStep fuel R cands hp st).map (Step.map (FrameSt.from t)) := by
  obtain ⟨rules, pos, neg, g⟩ := st
  unfold irepStep FrameSt.from
  dsimp only at h ⊢
  rw [h]
  split
  · rfl
  split
  · rfl
  generalize dfShuffledSplit R g pos (Arith.complement hp.irepPrune) hp.randomState = q1
  obtain ⟨pg, pp, g1⟩ := q1
  dsimp only
  generalize dfShuffledSplit R g1 neg (Arith.complement hp.irepPrune) hp.randomState = q2
  obtain ⟨ng, np, g2⟩ := q2
  dsimp only
  cases growRule fuel cands hp.lim pg ng [] with
  | error e => rfl
  | ok grown =>
    simp only [ok_bind]
    split
    · cases condsCover grown pos with
      | error e => rfl
      | ok d => simp [Except.map, Step.map, pure_eq_ok]
    cases pruneRule (irepMetric pp np) grown with
    | error e => rfl
    | ok o =>
      cases o with
      | none => rfl
      | some pruned =>
        simp only [ok_bind]
        cases precisionDf pruned pp np with
        | error e => rfl
        | ok o => cases o with
          | none => rfl
          | some q =>
            simp only [ok_bind]
            split
            · rfl
            · cases rmCoveredRule pruned pos neg with
              | error e => rfl
              | ok pn => simp [Except.map, Step.map, pure_eq_ok]

theorem irepStep_early (fuel : Nat) (cands : List Cond) (hp : Hyper) (st : FrameSt R)
    (h : stopEarly hp.lim st.rules st.pos.rows.length st.neg.rows.length = true) :
    irepStep fuel R cands hp st = .ok (.done st) := by
  unfold irepStep
  rw [h]
  split
  · rfl
  · rfl

theorem irepStep_prefix {fuel : Nat} {cands : List Cond} {hp : Hyper} {s s' : FrameSt R}
    (h : irepStep fuel R cands hp s = .ok (.more s') ∨ irepStep fuel R cands hp s = .ok (.done s')) : s.rules <+: s'.rules := by
  obtain ⟨rules, pos, neg, g⟩ := s
  unfold irepStep at h
  dsimp only at h ⊢
  split at h
  · rcases h with h | h <;> cases h; exact List.prefix_refl _
  split at h
  · rcases h with h | h <;> cases h; exact List.prefix_refl _
  generalize dfShuffledSplit R g pos (Arith.complement hp.irepPrune) hp.randomState = q1 at h
  obtain ⟨pg, pp, g1⟩ := q1
  dsimp only at h
  generalize dfShuffledSplit R g1 neg (Arith.complement hp.irepPrune) hp.randomState = q2 at h
  obtain ⟨ng, np, g2⟩ := q2
  dsimp only at h
  cases hgr : growRule fuel cands hp.lim pg ng [] with
  | error e => rw [hgr] at h; rcases h with h | h <;> cases h
  | ok grown =>
    rw [hgr] at h
    simp only [ok_bind] at h
    split at h
    · cases hc : condsCover grown pos with
      | error e => rw [hc] at h; rcases h with h | h <;> cases h
      | ok d => rw [hc] at h; rcases h with h | h <;> cases h; exact List.prefix_append _ _
    cases hpr : pruneRule (irepMetric pp np) grown with
    | error e => rw [hpr] at h; rcases h with h | h <;> cases h
    | ok o =>
      rw [hpr] at h
      cases o with
      | none => rcases h with h | h <;> cases h
      | some pruned =>
        simp only [ok_bind] at h
        cases hq : precisionDf pruned pp np with
        | error e => rw [hq] at h; rcases h with h | h <;> cases h
        | ok o =>
          rw [hq] at h
          cases o with
          | none => rcases h with h | h <;> cases h; exact List.prefix_refl _
          | some q =>
            simp only [ok_bind] at h
            split at h
            · rcases h with h | h <;> cases h; exact List.prefix_refl _
            · cases hrm : rmCoveredRule pruned pos neg with
              | error e => rw [hrm] at h; rcases h with h | h <;> cases h
              | ok pn => rw [hrm] at h; rcases h with h | h <;> cases h; exact List.prefix_append _ _

theorem irepGrow_from (fuel : Nat) (cands : List Cond) (hp : Hyper) (hl : hp.lim.Unlimited) (t : List (List Cond))
    (pos neg : Frame) (g : R.G) :
    irepGrow fuel R cands hp t pos neg g = (irepGrow fuel R cands hp [] pos neg g).map (FrameSt.from t) := by
  have := pyWhile_shift (f := FrameSt.from t) (body := irepStep fuel R cands hp)
    (fun s => irepStep_shift fuel cands hp t s (stopEarly_shift hl _ _ _ _)) fuel { rules := [], pos := pos, neg := neg, g := g }
  unfold irepGrow
  rw [← this]
  simp [FrameSt.from]

theorem irepGrow_early (fuel : Nat) (cands : List Cond) (hp : Hyper) (t : List (List Cond)) (pos neg : Frame) (g : R.G)
    {st : FrameSt R} (h : irepGrow fuel R cands hp [] pos neg g = .ok st) :
    ∃ st' : FrameSt R, irepGrow fuel R cands hp t pos neg g = .ok (st'.from t) ∧ st'.rules <+: st.rules := by
  obtain ⟨s2, h1, _, h3⟩ := pyWhile_shift_early (f := FrameSt.from t) (body := irepStep fuel R cands hp)
    (le := fun a b => a.rules <+: b.rules) (fun s => List.prefix_refl _) (fun a b c => List.IsPrefix.trans)
    (fun s s' hs => irepStep_prefix (Or.inl hs)) (fun s s' hs => irepStep_prefix (Or.inr hs))
    (fun s => by
      by_cases hh : stopEarly hp.lim (t ++ s.rules) s.pos.rows.length s.neg.rows.length =
          stopEarly hp.lim s.rules s.pos.rows.length s.neg.rows.length
      · exact Or.inl (irepStep_shift fuel cands hp t s hh)
      · right
        apply irepStep_early
        cases h2 : stopEarly hp.lim s.rules s.pos.rows.length s.neg.rows.length
        · rw [h2] at hh
          exact Bool.eq_true_of_not_eq_false hh
        · exact stopEarly_more t _ _ _ h2) fuel _ st h
  refine ⟨s2, ?_, h3⟩
  unfold irepGrow
  rw [← h1]
  simp [FrameSt.from]

/-! ### candidates listed twice -/

omit [Arith] in
theorem bestLoopM_again {score : List Cond → Except PyErr Rat} : ∀ (l : List (List Cond)) (b : Option (List Cond) × Rat),
    (∀ s ∈ l, ∃ v, score s = .ok v ∧ v ≤ b.2) → bestLoopM score b l = .ok b
  | [], _, _ => rfl
  | s :: l, b, h => by
    obtain ⟨v, hv, hle⟩ := h s (by simp)
    rw [bestLoopM, hv, ok_bind, if_neg (not_lt.mpr hle)]
    exact bestLoopM_again l b (fun s hs => h s (by simp [hs]))

omit [Arith] in
theorem bestLoopM_twice {score : List Cond → Except PyErr Rat} (l : List (List Cond)) (b : Option (List Cond) × Rat) :
    bestLoopM score b (l ++ l) = bestLoopM score b l := by
  have happ : ∀ (l r : List (List Cond)) b, bestLoopM score b (l ++ r) = (do
      let b' ← bestLoopM score b l
      bestLoopM score b' r) := by
    intro l r
    induction l with
    | nil => intro b; rfl
    | cons a l ih =>
      intro b
      rw [List.cons_append, bestLoopM, bestLoopM]
      cases score a with
      | error e => rfl
      | ok g => simp only [ok_bind]; exact ih _
  rw [happ]
  cases hb : bestLoopM score b l with
  | error e => rfl
  | ok b' =>
    rw [ok_bind]
    exact bestLoopM_again l b' (bestLoopM_spec l b b' hb).2.2.2

theorem growRule_twice (fuel : Nat) (cands : List Cond) (lim : Limits) (pos neg : Frame) (r : List Cond) :
    growRule fuel (cands ++ cands) lim pos neg r = growRule fuel cands lim pos neg r := by
  have hb : ∀ r, bestSuccessor r (cands ++ cands) pos neg = bestSuccessor r cands pos neg := by
    intro r
    unfold bestSuccessor
    have : successors r (cands ++ cands) = successors r cands ++ successors r cands := by
      simp [successors]
    rw [this, bestLoopM_twice]
  have : growStep (cands ++ cands) lim pos neg = growStep cands lim pos neg := by
    funext rule
    unfold growStep
    simp only [hb]
  unfold growRule
  rw [this]

theorem irepGrow_twice (fuel : Nat) (cands : List Cond) (hp : Hyper) (init : List (List Cond)) (pos neg : Frame) (g : R.G) :
    irepGrow fuel R (cands ++ cands) hp init pos neg g = irepGrow fuel R cands hp init pos neg g := by
  have : irepStep fuel R (cands ++ cands) hp = irepStep fuel R cands hp := by
    funext st
    unfold irepStep
    simp only [growRule_twice]
  unfold irepGrow
  rw [this]

/-! ### the end of `fit` -/

/-- A rule as `fit` leaves it: with the counts of its training data. -/
def countedRule (df : Frame) (cf : Feat) (pc : Val) (alpha : Rat) (c : List Cond) : Rule := recalOf df cf pc alpha { conds := c }

/-- What IREP returns for the rules grown. -/
def irepModel (hp : Hyper) (df : Frame) (cf : Feat) (pc : Val) (possible : List Cond) (rules : List (List Cond)) : Fitted :=
  let rs : List Rule := rules.map (fun c => { conds := c })
  { ruleset := {
      rules := (finish hp.lim.maxTotalConds rules).map (countedRule df cf pc hp.alpha)
      uncov := calibOf hp.alpha (negIn df cf pc (rowUncovered rs df)) (posIn df cf pc (rowUncovered rs df))
      possible := some possible }
    selected := Ruleset.selectedFeatures { rules := rs }
    trainFeats := (df.dropCol cf).cols }

omit [Arith] in
theorem irepEnd {hp : Hyper} {df : Frame} {cf : Feat} {pc : Val} (ha : 0 < hp.alpha) (hcf : cf ∈ df.cols)
    {rules : List (List Cond)} (hf : HasFeatures df (rules.map (fun c => ({ conds := c } : Rule)))) (possible : List Cond)
    {G : Type} (g : G) :
    (do
      let rs : Ruleset := { rules := rules.map (fun c => { conds := c }), possible := some possible }
      let sel := rs.selectedFeatures
      let rs ← (match recalibrate rs df cf pc hp.alpha with | (rs, e) => raiseIf rs e)
      let rs : Ruleset := { rs with rules := removeDups Rule.sameKey rs.rules }
      let rs := rs.trimConds hp.lim.maxTotalConds
      return (({ ruleset := rs, selected := sel, trainFeats := (df.dropCol cf).cols } : Fitted), g) : Except PyErr (Fitted × G)) =
      .ok (irepModel hp df cf pc possible rules, g) := by
  dsimp only
  rw [recalibrate_ok ha hcf hf]
  simp only [raiseIf, ok_bind, pure_eq_ok, Except.ok.injEq, Prod.mk.injEq, and_true]
  unfold irepModel Ruleset.trimConds
  dsimp only
  rw [Fitted.mk.injEq]
  refine ⟨?_, rfl, rfl⟩
  rw [Ruleset.mk.injEq]
  refine ⟨?_, rfl, rfl⟩
  rw [List.map_map]
  have h1 : removeDups Rule.sameKey (rules.map (recalOf df cf pc hp.alpha ∘ fun c => ({ conds := c } : Rule))) =
      (removeDups condsSameKey rules).map (countedRule df cf pc hp.alpha) :=
    (removeDupsAux_map (countedRule df cf pc hp.alpha) condsSameKey Rule.sameKey (fun _ _ => rfl) rules []).symm
  rw [h1]
  unfold finish
  cases hp.lim.maxTotalConds with
  | none => rfl
  | some m =>
    simp only [trimRules, List.length_map]
    exact (trimAux_map (countedRule df cf pc hp.alpha) List.length (fun r : Rule => r.conds.length) (fun _ => rfl) m _ _).symm

theorem irepFit_model {fuel : Nat} {hp : Hyper} {init : List (List Cond)} {df : Frame} {cf : Feat} {pc : Val} {g : R.G}
    {cn : CatNap} {st : GrowSt R} (hne : df.rows ≠ []) (hcf : cf ∈ df.cols) (hb : CatNap.build df cf = .ok cn)
    (hg : irepGrowCn fuel R cn hp init (labelSet (posRows df cf pc).index) (labelSet (negRows df cf pc).index) g = .ok st)
    (ha : 0 < hp.alpha) (hf : HasFeatures df (st.rules.map (fun c => ({ conds := c } : Rule)))) :
    irepFit fuel R hp init df cf pc g = .ok (irepModel hp df cf pc cn.conds st.rules, st.g) := by
  unfold irepFit
  rw [if_neg hne, if_neg (by simpa using hcf), hb, ok_bind, hg, ok_bind]
  exact irepEnd ha hcf hf cn.conds st.g

theorem irepFitPlain_model {fuel : Nat} {S : SetOps} {hp : Hyper} {old : Option (List Cond)} {init : List (List Cond)} {df : Frame}
    {cf : Feat} {pc : Val} {g : R.G} {st : FrameSt R} (hne : df.rows ≠ []) (hcf : cf ∈ df.cols)
    (hg : irepGrow fuel R (updatedConds S old (posExamples df cf pc) (negExamples df cf pc)) hp init
      (posExamples df cf pc) (negExamples df cf pc) g = .ok st)
    (ha : 0 < hp.alpha) (hf : HasFeatures df (st.rules.map (fun c => ({ conds := c } : Rule)))) :
    irepFitPlain fuel R S hp old init df cf pc g =
      .ok (irepModel hp df cf pc (updatedConds S old (posExamples df cf pc) (negExamples df cf pc)) st.rules, st.g) := by
  unfold irepFitPlain
  rw [if_neg hne, if_neg (by simpa using hcf)]
  simp only
  rw [hg, ok_bind]
  exact irepEnd ha hcf hf _ st.g

/-- The run of the loop inside IREP's `fit`: the rules it ends with and the generator's state. -/
def Method.irepLoop (a : Method) (fuel : Nat) (R : PyRandom) (hp : Hyper) (old : Option (List Cond)) (init : List (List Cond))
    (df : Frame) (cf : Feat) (pc : Val) (g : R.G) : Except PyErr (List (List Cond) × List Cond × R.G) :=
  match a with
  | .irepPlain S => do
    let cands := updatedConds S old (posExamples df cf pc) (negExamples df cf pc)
    let st ← irepGrow fuel R cands hp init (posExamples df cf pc) (negExamples df cf pc) g
    return (st.rules, cands, st.g)
  | _ => do
    let cn ← CatNap.build df cf
    let st ← irepGrowCn fuel R cn hp init (labelSet (posRows df cf pc).index) (labelSet (negRows df cf pc).index) g
    return (st.rules, cn.conds, st.g)

/-- `IREP.fit`, with or without the coverage index. -/
def Method.isIrep (a : Method) : Prop := a = .irep ∨ ∃ S, a = .irepPlain S

theorem train_of_loop {a : Method} (hi : a.isIrep) {fuel : Nat} {hp : Hyper} {old : Option (List Cond)} {init : List (List Cond)}
    {df : Frame} {cf : Feat} {pc : Val} {g g' : R.G} {rules : List (List Cond)} {cands : List Cond} (hne : df.rows ≠ [])
    (hcf : cf ∈ df.cols) (h : a.irepLoop fuel R hp old init df cf pc g = .ok (rules, cands, g')) (ha : 0 < hp.alpha)
    (hf : HasFeatures df (rules.map (fun c => ({ conds := c } : Rule)))) :
    a.train fuel R hp old init df cf pc g = .ok (irepModel hp df cf pc cands rules, g') := by
  rcases hi with rfl | ⟨S, rfl⟩
  · obtain ⟨cn, hb, h⟩ := bind_ok_iff.mp h
    obtain ⟨st, hg, h⟩ := bind_ok_iff.mp h
    cases h
    exact irepFit_model hne hcf hb hg ha hf
  · obtain ⟨st, hg, h⟩ := bind_ok_iff.mp h
    cases h
    exact irepFitPlain_model hne hcf hg ha hf

theorem loop_of_train {a : Method} (hi : a.isIrep) {fuel : Nat} {hp : Hyper} {old : Option (List Cond)} {init : List (List Cond)}
    {df : Frame} {cf : Feat} {pc : Val} {g g' : R.G} {m : Fitted} (h : a.train fuel R hp old init df cf pc g = .ok (m, g'))
    (ha : 0 < hp.alpha) :
    df.rows ≠ [] ∧ cf ∈ df.cols ∧ ∃ rules cands, a.irepLoop fuel R hp old init df cf pc g = .ok (rules, cands, g') ∧
      HasFeatures df (rules.map (fun c => ({ conds := c } : Rule))) ∧ m = irepModel hp df cf pc cands rules := by
  rcases hi with rfl | ⟨S, rfl⟩
  · have h0 : irepFit fuel R hp init df cf pc g = .ok (m, g') := h
    obtain ⟨hne, cn, st, hb, hg, _, _, _, ⟨rs1, hr, _⟩, hg'⟩ := irepFit_ok h0
    have hcf : cf ∈ df.cols := by
      by_contra hcf
      unfold irepFit at h0
      rw [if_neg hne, if_pos hcf] at h0
      cases h0
    have hf := hasFeatures_of_recal hr
    have := irepFit_model hne hcf hb hg ha hf
    rw [h0] at this
    cases this
    refine ⟨hne, hcf, st.rules, cn.conds, ?_, hf, rfl⟩
    unfold Method.irepLoop
    dsimp only
    rw [hb, ok_bind, hg]
    rfl
  · have h0 : irepFitPlain fuel R S hp old init df cf pc g = .ok (m, g') := h
    obtain ⟨hne, hcf, st, hg, _, _, _, ⟨rs1, hr, _⟩, hg'⟩ := irepFitPlain_ok h0
    have hf := hasFeatures_of_recal hr
    have := irepFitPlain_model hne hcf hg ha hf
    rw [h0] at this
    cases this
    refine ⟨hne, hcf, st.rules, _, ?_, hf, rfl⟩
    unfold Method.irepLoop
    dsimp only
    rw [hg]
    rfl

theorem irepLoop_from {a : Method} (fuel : Nat) (hp : Hyper) (hl : hp.lim.Unlimited) (old : Option (List Cond))
    (t : List (List Cond)) (df : Frame) (cf : Feat) (pc : Val) (g : R.G) :
    a.irepLoop fuel R hp old t df cf pc g =
      (a.irepLoop fuel R hp old [] df cf pc g).map (fun x => (t ++ x.1, x.2)) := by
  unfold Method.irepLoop
  cases a with
  | irepPlain S =>
    dsimp only
    rw [irepGrow_from fuel _ hp hl t]
    cases irepGrow fuel R (updatedConds S old (posExamples df cf pc) (negExamples df cf pc)) hp [] (posExamples df cf pc)
      (negExamples df cf pc) g <;> rfl
  | _ =>
    dsimp only
    cases CatNap.build df cf with
    | error e => rfl
    | ok cn =>
      simp only [ok_bind]
      rw [irepGrowCn_from fuel cn hp hl t]
      cases irepGrowCn fuel R cn hp [] (labelSet (posRows df cf pc).index) (labelSet (negRows df cf pc).index) g <;> rfl

theorem irepLoop_early {a : Method} (fuel : Nat) (hp : Hyper) (old : Option (List Cond)) (t : List (List Cond)) (df : Frame)
    (cf : Feat) (pc : Val) (g g' : R.G) {rules : List (List Cond)} {cands : List Cond}
    (h : a.irepLoop fuel R hp old [] df cf pc g = .ok (rules, cands, g')) :
    ∃ q g2, a.irepLoop fuel R hp old t df cf pc g = .ok (t ++ q, cands, g2) ∧ q <+: rules := by
  unfold Method.irepLoop at h ⊢
  cases a with
  | irepPlain S =>
    obtain ⟨st, hg, h⟩ := bind_ok_iff.mp h
    cases h
    obtain ⟨st', h1, h2⟩ := irepGrow_early fuel _ hp t _ _ g hg
    refine ⟨st'.rules, st'.g, ?_, h2⟩
    dsimp only
    rw [h1]
    rfl
  | _ =>
    dsimp only at h ⊢
    obtain ⟨cn, hb, h⟩ := bind_ok_iff.mp h
    obtain ⟨st, hg, h⟩ := bind_ok_iff.mp h
    cases h
    obtain ⟨st', h1, h2⟩ := irepGrowCn_early fuel cn hp t _ _ g hg
    refine ⟨st'.rules, st'.g, ?_, h2⟩
    rw [hb, ok_bind, h1]
    rfl

/-- Candidates that already contain those of the data change nothing. -/
theorem irepLoop_again {a : Method} (fuel : Nat) (hp : Hyper) (t : List (List Cond)) (df : Frame)
    (cf : Feat) (pc : Val) (g0 g : R.G) {cands : List Cond} {g0' : R.G} {rules0 : List (List Cond)}
    (h0 : a.irepLoop fuel R hp none [] df cf pc g0 = .ok (rules0, cands, g0')) :
    (a.irepLoop fuel R hp (some cands) t df cf pc g).map (fun x => (x.1, x.2.2)) =
      (a.irepLoop fuel R hp none t df cf pc g).map (fun x => (x.1, x.2.2)) := by
  unfold Method.irepLoop at h0 ⊢
  cases a with
  | irepPlain S =>
    obtain ⟨st, hg, h⟩ := bind_ok_iff.mp h0
    cases h
    dsimp only
    have : updatedConds S (some (updatedConds S none (posExamples df cf pc) (negExamples df cf pc))) (posExamples df cf pc)
        (negExamples df cf pc) = updatedConds S none (posExamples df cf pc) (negExamples df cf pc) ++
          updatedConds S none (posExamples df cf pc) (negExamples df cf pc) := by
      simp [updatedConds]
    rw [this, irepGrow_twice]
    cases irepGrow fuel R (updatedConds S none (posExamples df cf pc) (negExamples df cf pc)) hp t (posExamples df cf pc)
      (negExamples df cf pc) g <;> rfl
  | _ => rfl

end Witt
