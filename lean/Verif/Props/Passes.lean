import Verif.Props.Optimize
import Verif.Props.PlainOptimize
/-
C82: RIPPER's optimisation passes.
-/
namespace Witt
open Spec

/-- Running passes: at most `k`, each on the result of the one before, stopping early exactly after a pass that returned the
rules it was given. `s` and `t` are the rules, and the state of the generator, before and after. -/
def Spec.Passes {G : Type} (pass : List (List Cond) → G → Except PyErr (List (List Cond) × G)) (k : Nat)
    (s t : List (List Cond) × G) : Prop :=
  ∃ m, m ≤ k ∧ ∃ at_ : Nat → List (List Cond) × G, at_ 0 = s ∧ at_ m = t ∧
    (∀ j, j < m → pass (at_ j).1 (at_ j).2 = .ok (at_ (j + 1))) ∧
    (∀ j, j + 1 < m → (at_ (j + 1)).1 ≠ (at_ j).1) ∧
    (m = k ∨ (0 < m ∧ (at_ m).1 = (at_ (m - 1)).1))

/-- `k` passes, none of them left out. -/
def Spec.allPasses {G : Type} (pass : List (List Cond) → G → Except PyErr (List (List Cond) × G)) :
    Nat → List (List Cond) × G → Except PyErr (List (List Cond) × G)
  | 0, s => .ok s
  | k + 1, s => do allPasses pass k (← pass s.1 s.2)

/-! ### a pass that returns an equal ruleset returns the same rules -/

/-- What makes the comparison of rulesets harmless. -/
def Fresh (rules out : List (List Cond)) : Prop := out = rules ∨ ∃ x ∈ out, condsIn x rules = false

theorem Fresh.eq_iff {rules out : List (List Cond)} (h : Fresh rules out) :
    condsRulesetEq rules out = true ↔ out = rules := by
  constructor
  · intro he
    rcases h with h | ⟨x, hx, hf⟩
    · exact h
    · unfold condsRulesetEq at he
      rw [Bool.and_eq_true, List.all_eq_true, List.all_eq_true] at he
      have := he.2 x hx
      rw [List.any_eq_true] at this
      obtain ⟨s, hs, hxs⟩ := this
      have : condsIn x rules = true := by
        unfold condsIn
        rw [List.any_eq_true]
        exact ⟨s, hs, condsEq_symm hxs⟩
      rw [hf] at this
      cases this
  · intro he
    rw [he]
    unfold condsRulesetEq
    have : ∀ r ∈ rules, (rules.any fun s => condsEq r s) = true := fun r hr => by
      rw [List.any_eq_true]
      exact ⟨r, hr, condsEq_prints.mpr ⟨rfl, fun _ => Iff.rfl⟩⟩
    rw [Bool.and_eq_true, List.all_eq_true]
    exact ⟨this, this⟩

theorem set_getElem {α : Type} {l : List α} {i : Nat} {a : α} (h : l[i]? = some a) : l.set i a = l := by
  apply List.ext_getElem?
  intro j
  rw [List.getElem?_set]
  split
  · rename_i hij
    subst hij
    split
    · exact h.symm
    · rename_i hlt
      rw [List.getElem?_eq_none (by omega)]
  · rfl

section
variable [Arith] {fuel : Nat} {R : PyRandom} {cn : CatNap} {hp : Hyper} {allPos allNeg : List Label}

theorem optimizeLoop_fresh {ps : Rat} {rs : Option Int} {original : List (List Cond)} {odl : Rat} :
    ∀ (rest : List (List Cond)) (i : Nat) (new : List (List Cond)) (pos neg : List Label) (g : R.G)
      (out : List (List Cond)) (g' : R.G), (∀ j : Nat, j < rest.length → new[i + j]? = rest[j]?) →
    optimizeLoop fuel R cn hp ps rs original odl allPos allNeg i rest new pos neg g = .ok (out, g') →
    Fresh new out := by
  intro rest
  induction rest with
  | nil =>
    intro i new pos neg g out g' _ h
    simp only [optimizeLoop, Except.ok.injEq, Prod.mk.injEq] at h
    exact Or.inl h.1.symm
  | cons rule rest ih =>
    intro i new pos neg g out g' hat h
    rw [optimizeLoop] at h
    rcases hp1 : randomSplit R g pos (Arith.complement ps) rs with ⟨a, b, g1⟩
    rcases hp2 : randomSplit R g1 neg (Arith.complement ps) rs with ⟨c, d, g2⟩
    simp only [hp1, hp2] at h
    split at h
    · simp only [pure_eq_ok, Except.ok.injEq, Prod.mk.injEq] at h
      exact Or.inl h.1.symm
    split at h
    · simp only [pure_eq_ok, Except.ok.injEq, Prod.mk.injEq] at h
      exact Or.inl h.1.symm
    obtain ⟨best, hbest, h⟩ := bind_ok_iff.mp h
    have hi : new[i]? = some rule := by simpa using hat 0 (by simp)
    have hlt : i < new.length := (List.getElem?_eq_some_iff.mp hi).1
    by_cases hin : condsIn best new = true
    · simp only [hin, Bool.not_true, Bool.false_eq_true, if_false, set_getElem hi] at h
      split at h
      · simp only [pure_eq_ok, Except.ok.injEq, Prod.mk.injEq] at h
        exact Or.inl h.1.symm
      · refine ih (i + 1) new _ _ _ _ _ ?_ h
        intro j hj
        have := hat (j + 1) (by simpa using hj)
        rw [List.getElem?_cons_succ] at this
        rw [← this]
        congr 1
        omega
    · rw [Bool.not_eq_true] at hin
      simp only [hin, Bool.not_false, if_true] at h
      refine Or.inr ⟨best, ?_, hin⟩
      split at h
      · simp only [pure_eq_ok, Except.ok.injEq, Prod.mk.injEq] at h
        rw [← h.1]
        exact List.mem_set hlt best
      · obtain ⟨h1, h2⟩ := optimizeLoop_spec _ _ _ _ _ _ _ _ h
        have hj : i < out.length := by rw [h1, List.length_set]; exact hlt
        rcases h2 i out[i] (List.getElem?_eq_getElem hj) with he | ⟨he, _⟩
        · rw [List.getElem?_set_self hlt] at he
          injection he with he
          rw [he]
          exact List.getElem_mem hj
        · omega

theorem optimizeCn_fresh {rs : Option Int} {rules out : List (List Cond)} {g g' : R.G}
    (h : optimizeCn fuel R cn hp rs rules allPos allNeg g = .ok (out, g')) : Fresh rules out := by
  unfold optimizeCn at h
  obtain ⟨⟨mdl, odl⟩, hb, h⟩ := bind_ok_iff.mp h
  simp only at h
  cases hps : hp.pruneSize with
  | none =>
    rw [hps] at h
    simp only at h
    split at h
    · simp only [pure_eq_ok, Except.ok.injEq, Prod.mk.injEq] at h
      exact Or.inl h.1.symm
    · cases h
  | some ps =>
    rw [hps] at h
    exact optimizeLoop_fresh _ _ _ _ _ _ _ _ (fun j _ => by rw [Nat.zero_add]) h

end

section
variable [Arith] {fuel : Nat} {R : PyRandom} {cands : List Cond} {hp : Hyper} {allPos allNeg : Frame}

theorem optimizeLoopDf_fresh {ps : Rat} {rs : Option Int} {original : List (List Cond)} {odl : Rat} :
    ∀ (rest : List (List Cond)) (i : Nat) (new : List (List Cond)) (pos neg : Frame) (g : R.G)
      (out : List (List Cond)) (g' : R.G), (∀ j : Nat, j < rest.length → new[i + j]? = rest[j]?) →
    optimizeLoopDf fuel R cands hp ps rs original odl allPos allNeg i rest new pos neg g = .ok (out, g') →
    Fresh new out := by
  intro rest
  induction rest with
  | nil =>
    intro i new pos neg g out g' _ h
    simp only [optimizeLoopDf, Except.ok.injEq, Prod.mk.injEq] at h
    exact Or.inl h.1.symm
  | cons rule rest ih =>
    intro i new pos neg g out g' hat h
    rw [optimizeLoopDf] at h
    rcases hp1 : dfShuffledSplit R g pos (Arith.complement ps) rs with ⟨a, b, g1⟩
    rcases hp2 : dfShuffledSplit R g1 neg (Arith.complement ps) rs with ⟨c, d, g2⟩
    simp only [hp1, hp2] at h
    split at h
    · simp only [pure_eq_ok, Except.ok.injEq, Prod.mk.injEq] at h
      exact Or.inl h.1.symm
    split at h
    · simp only [pure_eq_ok, Except.ok.injEq, Prod.mk.injEq] at h
      exact Or.inl h.1.symm
    obtain ⟨best, hbest, h⟩ := bind_ok_iff.mp h
    have hi : new[i]? = some rule := by simpa using hat 0 (by simp)
    have hlt : i < new.length := (List.getElem?_eq_some_iff.mp hi).1
    obtain ⟨⟨pos', neg'⟩, hrm, h⟩ := bind_ok_iff.mp h
    by_cases hin : condsIn best new = true
    · simp only [hin, Bool.not_true, Bool.false_eq_true, if_false, set_getElem hi] at h
      split at h
      · simp only [pure_eq_ok, Except.ok.injEq, Prod.mk.injEq] at h
        exact Or.inl h.1.symm
      · refine ih (i + 1) new _ _ _ _ _ ?_ h
        intro j hj
        have := hat (j + 1) (by simpa using hj)
        rw [List.getElem?_cons_succ] at this
        rw [← this]
        congr 1
        omega
    · rw [Bool.not_eq_true] at hin
      simp only [hin, Bool.not_false, if_true] at h
      refine Or.inr ⟨best, ?_, hin⟩
      split at h
      · simp only [pure_eq_ok, Except.ok.injEq, Prod.mk.injEq] at h
        rw [← h.1]
        exact List.mem_set hlt best
      · obtain ⟨h1, h2⟩ := optimizeLoopDf_spec _ _ _ _ _ _ _ _ h
        have hj : i < out.length := by rw [h1, List.length_set]; exact hlt
        rcases h2 i out[i] (List.getElem?_eq_getElem hj) with he | ⟨he, _⟩
        · rw [List.getElem?_set_self hlt] at he
          injection he with he
          rw [he]
          exact List.getElem_mem hj
        · omega

theorem optimizeDf_fresh {rs : Option Int} {rules out : List (List Cond)} {g g' : R.G}
    (h : optimizeDf fuel R cands hp rs rules allPos allNeg g = .ok (out, g')) : Fresh rules out := by
  unfold optimizeDf at h
  obtain ⟨⟨mdl, odl⟩, hb, h⟩ := bind_ok_iff.mp h
  simp only at h
  cases hps : hp.pruneSize with
  | none =>
    rw [hps] at h
    simp only at h
    split at h
    · simp only [pure_eq_ok, Except.ok.injEq, Prod.mk.injEq] at h
      exact Or.inl h.1.symm
    · cases h
  | some ps =>
    rw [hps] at h
    exact optimizeLoopDf_fresh _ _ _ _ _ _ _ _ (fun j _ => by rw [Nat.zero_add]) h

end

/-! ### any loop of passes -/

section
variable {G : Type} {pass : List (List Cond) → G → Except PyErr (List (List Cond) × G)}
  {loop : Nat → List (List Cond) → G → Except PyErr (List (List Cond) × G)}

/-- The loop of ripper.py 271-311 over a pass that is honest about changes. -/
structure PassLoop (pass : List (List Cond) → G → Except PyErr (List (List Cond) × G))
    (loop : Nat → List (List Cond) → G → Except PyErr (List (List Cond) × G)) : Prop where
  zero : ∀ rules g, loop 0 rules g = .ok (rules, g)
  succ : ∀ n rules g, loop (n + 1) rules g = pass rules g >>= fun s =>
    if n ≠ 0 ∧ s.1 = rules then .ok s else loop n s.1 s.2

theorem PassLoop.passes (hl : PassLoop pass loop) : ∀ (k : Nat) (rules : List (List Cond)) (g : G)
    (t : List (List Cond) × G), loop k rules g = .ok t → Passes pass k (rules, g) t := by
  intro k
  induction k with
  | zero =>
    intro rules g t h
    rw [hl.zero] at h
    injection h with h
    exact ⟨0, le_refl _, fun _ => (rules, g), rfl, h, fun j hj => by omega, fun j hj => by omega, Or.inl rfl⟩
  | succ n ih =>
    intro rules g t h
    rw [hl.succ] at h
    obtain ⟨s, hs, h⟩ := bind_ok_iff.mp h
    split at h
    · rename_i hc
      injection h with h
      subst h
      refine ⟨1, by omega, fun j => if j = 0 then (rules, g) else s, rfl, rfl, ?_, fun j hj => by omega, Or.inr ⟨by omega, hc.2⟩⟩
      intro j hj
      obtain rfl : j = 0 := by omega
      exact hs
    · rename_i hc
      obtain ⟨m, hm, at_, h0, ht, hp, hd, he⟩ := ih _ _ _ h
      refine ⟨m + 1, by omega, fun j => if j = 0 then (rules, g) else at_ (j - 1), rfl, by simpa using ht, ?_, ?_, ?_⟩
      · intro j hj
        cases j with
        | zero => simpa [h0] using hs
        | succ j => simpa using hp j (by omega)
      · intro j hj
        cases j with
        | zero =>
          intro e
          simp only [Nat.zero_add, if_neg (show (1 : Nat) ≠ 0 by omega), Nat.sub_self, h0, if_true] at e
          exact hc ⟨by omega, e⟩
        | succ j => simpa using hd j (by omega)
      · rcases he with he | ⟨he1, he2⟩
        · exact Or.inl (by omega)
        · refine Or.inr ⟨by omega, ?_⟩
          have hm0 : m ≠ 0 := by omega
          simpa [hm0] using he2

theorem PassLoop.of_passes (hl : PassLoop pass loop) : ∀ (k : Nat) (rules : List (List Cond)) (g : G)
    (t : List (List Cond) × G), Passes pass k (rules, g) t → loop k rules g = .ok t := by
  intro k
  induction k with
  | zero =>
    rintro rules g t ⟨m, hm, at_, h0, ht, -⟩
    obtain rfl : m = 0 := by omega
    rw [hl.zero, ← ht, h0]
  | succ n ih =>
    rintro rules g t ⟨m, hm, at_, h0, ht, hp, hd, he⟩
    rw [hl.succ]
    have hm0 : 0 < m := by rcases he with he | he <;> omega
    have h1 := hp 0 hm0
    rw [h0] at h1
    rw [h1, ok_bind]
    split
    · rename_i hc
      have : m = 1 := by
        by_contra hne
        have := hd 0 (by omega)
        rw [h0] at this
        exact this hc.2
      subst this
      rw [← ht]
    · rename_i hc
      refine ih _ _ _ ⟨m - 1, by omega, fun j => at_ (j + 1), rfl, ?_, ?_, ?_, ?_⟩
      · simp only [Nat.sub_add_cancel hm0]
        exact ht
      · intro j hj
        exact hp (j + 1) (by omega)
      · intro j hj
        exact hd (j + 1) (by omega)
      · rcases he with he | ⟨he1, he2⟩
        · exact Or.inl (by omega)
        · by_cases hm1 : m = 1
          · subst hm1
            refine Or.inl ?_
            by_contra hne
            refine hc ⟨by omega, ?_⟩
            rw [h0] at he2
            exact he2
          · refine Or.inr ⟨by omega, ?_⟩
            have e1 : m - 1 + 1 = m := by omega
            have e2 : m - 1 - 1 + 1 = m - 1 := by omega
            simp only [e1, e2]
            exact he2

/-- A pass whose rules do not depend on the state of the generator. -/
theorem PassLoop.all (hl : PassLoop pass loop)
    (hseed : ∀ rules g g', (pass rules g).map Prod.fst = (pass rules g').map Prod.fst) :
    ∀ (k : Nat) (rules : List (List Cond)) (g : G),
      (loop k rules g).map Prod.fst = (allPasses pass k (rules, g)).map Prod.fst := by
  have hfix : ∀ (n : Nat) (rules : List (List Cond)) (g g' : G) (t : List (List Cond) × G), pass rules g = .ok t →
      t.1 = rules → (allPasses pass n (rules, g')).map Prod.fst = .ok rules := by
    intro n
    induction n with
    | zero => intros; rfl
    | succ n ih =>
      intro rules g g' t h e
      rw [allPasses]
      have h2 := hseed rules g' g
      rw [h] at h2
      cases hp : pass rules g' with
      | error e => rw [hp] at h2; cases h2
      | ok t' =>
        rw [hp] at h2
        simp only [Except.map, Except.ok.injEq] at h2
        rw [ok_bind]
        obtain ⟨a, b⟩ := t'
        simp only at h2
        rw [h2, e]
        exact ih _ _ _ _ h e
  intro k
  induction k with
  | zero => intro rules g; rw [hl.zero]; rfl
  | succ n ih =>
    intro rules g
    rw [hl.succ, allPasses]
    cases hp : pass rules g with
    | error e => rfl
    | ok t =>
      rw [ok_bind, ok_bind]
      split
      · rename_i hc
        obtain ⟨a, b⟩ := t
        simp only at hc
        rw [hc.2, hfix n rules g b _ hp hc.2]
        rfl
      · exact ih _ _

end

theorem stage2_loop [Arith] (fuel : Nat) (R : PyRandom) (cn : CatNap) (hp : Hyper) (pos neg : List Label) :
    PassLoop (fun rules g => optimizeCn fuel R cn hp (hp.randomState.map (· + 100)) rules pos neg g)
      (stage2 fuel R cn hp pos neg) where
  zero _ _ := rfl
  succ n rules g := by
    rw [stage2]
    cases h : optimizeCn fuel R cn hp (hp.randomState.map (· + 100)) rules pos neg g with
    | error e => rfl
    | ok t =>
      obtain ⟨new, g'⟩ := t
      rw [ok_bind, ok_bind]
      dsimp only
      have := (optimizeCn_fresh h).eq_iff
      by_cases hc : n ≠ 0 ∧ new = rules
      · rw [if_pos hc, if_pos (by simp [hc.1, this.mpr hc.2]), hc.2]
        rfl
      · rw [if_neg hc, if_neg]
        intro he
        simp only [Bool.and_eq_true, decide_eq_true_eq] at he
        exact hc ⟨he.1, this.mp he.2⟩

theorem stage2Df_loop [Arith] (fuel : Nat) (R : PyRandom) (cands : List Cond) (hp : Hyper) (pos neg : Frame) :
    PassLoop (fun rules g => optimizeDf fuel R cands hp (hp.randomState.map (· + 100)) rules pos neg g)
      (stage2Df fuel R cands hp pos neg) where
  zero _ _ := rfl
  succ n rules g := by
    rw [stage2Df]
    cases h : optimizeDf fuel R cands hp (hp.randomState.map (· + 100)) rules pos neg g with
    | error e => rfl
    | ok t =>
      obtain ⟨new, g'⟩ := t
      rw [ok_bind, ok_bind]
      dsimp only
      have := (optimizeDf_fresh h).eq_iff
      by_cases hc : n ≠ 0 ∧ new = rules
      · rw [if_pos hc, if_pos (by simp [hc.1, this.mpr hc.2]), hc.2]
        rfl
      · rw [if_neg hc, if_neg]
        intro he
        simp only [Bool.and_eq_true, decide_eq_true_eq] at he
        exact hc ⟨he.1, this.mp he.2⟩

/-- C82. RIPPER's optimisation stage runs its passes one after the other, at most `k` of them, and stops early exactly after a
pass that returned the very rules it was given (although the program compares rulesets by what they print, in any order). -/
theorem C82_passes [Arith] (fuel : Nat) (R : PyRandom) (cn : CatNap) (hp : Hyper) (pos neg : List Label) (k : Nat)
    (s t : List (List Cond) × R.G) :
    stage2 fuel R cn hp pos neg k s.1 s.2 = .ok t ↔
      Passes (fun rules g => optimizeCn fuel R cn hp (hp.randomState.map (· + 100)) rules pos neg g) k s t :=
  ⟨(stage2_loop fuel R cn hp pos neg).passes k s.1 s.2 t, (stage2_loop fuel R cn hp pos neg).of_passes k s.1 s.2 t⟩

/-- C82 with `cn_optimize=False`. -/
theorem C82_plain_passes [Arith] (fuel : Nat) (R : PyRandom) (cands : List Cond) (hp : Hyper) (pos neg : Frame) (k : Nat)
    (s t : List (List Cond) × R.G) :
    stage2Df fuel R cands hp pos neg k s.1 s.2 = .ok t ↔
      Passes (fun rules g => optimizeDf fuel R cands hp (hp.randomState.map (· + 100)) rules pos neg g) k s t :=
  ⟨(stage2Df_loop fuel R cands hp pos neg).passes k s.1 s.2 t, (stage2Df_loop fuel R cands hp pos neg).of_passes k s.1 s.2 t⟩

/-- C82. With a `random_state`, stopping early is only a saving: the outcome (rules or exception) is that of running all `k`
passes. -/
theorem C82_seeded_passes [Arith] (fuel : Nat) (R : PyRandom) (hR : R.SeedResets) (cn : CatNap) (hp : Hyper) (seed : Int)
    (hs : hp.randomState = some seed) (pos neg : List Label) (k : Nat) (rules : List (List Cond)) (g : R.G) :
    (stage2 fuel R cn hp pos neg k rules g).map Prod.fst =
      (allPasses (fun rules g => optimizeCn fuel R cn hp (some (seed + 100)) rules pos neg g) k (rules, g)).map Prod.fst := by
  have := (stage2_loop fuel R cn hp pos neg).all (fun rules g g' => by rw [hs]; exact optimizeCn_seeded hR rules g g') k rules g
  rw [this, hs]
  rfl

/-- C82. The same with `cn_optimize=False`. -/
theorem C82_plain_seeded_passes [Arith] (fuel : Nat) (R : PyRandom) (hR : R.SeedResets) (cands : List Cond) (hp : Hyper)
    (seed : Int) (hs : hp.randomState = some seed) (pos neg : Frame) (k : Nat) (rules : List (List Cond)) (g : R.G) :
    (stage2Df fuel R cands hp pos neg k rules g).map Prod.fst =
      (allPasses (fun rules g => optimizeDf fuel R cands hp (some (seed + 100)) rules pos neg g) k (rules, g)).map Prod.fst := by
  have := (stage2Df_loop fuel R cands hp pos neg).all (fun rules g g' => by rw [hs]; exact optimizeDf_seeded hR rules g g') k rules g
  rw [this, hs]
  rfl

/-- The rules after growing and `n` passes. -/
def Spec.afterPasses [Arith] (fuel : Nat) (R : PyRandom) (cn : CatNap) (hp : Hyper) (init : List (List Cond))
    (pos neg : List Label) (g : R.G) (n : Nat) : Except PyErr (List (List Cond)) := do
  let grown ← ripperGrowCn fuel R cn hp init pos neg g
  (allPasses (fun rules g => optimizeCn fuel R cn hp (hp.randomState.map (· + 100)) rules pos neg g) n
    (grown.rules, grown.g)).map Prod.fst

theorem allPasses_add {G : Type} (pass : List (List Cond) → G → Except PyErr (List (List Cond) × G)) (m : Nat) :
    ∀ (n : Nat) (s : List (List Cond) × G), allPasses pass (n + m) s = allPasses pass n s >>= allPasses pass m := by
  intro n
  induction n with
  | zero => intro s; rw [Nat.zero_add]; rfl
  | succ n ih =>
    intro s
    rw [show n + 1 + m = (n + m) + 1 by omega, allPasses, allPasses]
    cases pass s.1 s.2 with
    | error e => rfl
    | ok t => rw [ok_bind, ok_bind, ih]

theorem allPasses_seeded {G : Type} {pass : List (List Cond) → G → Except PyErr (List (List Cond) × G)}
    (hseed : ∀ rules g g', (pass rules g).map Prod.fst = (pass rules g').map Prod.fst) :
    ∀ (n : Nat) (rules : List (List Cond)) (g g' : G),
      (allPasses pass n (rules, g)).map Prod.fst = (allPasses pass n (rules, g')).map Prod.fst := by
  intro n
  induction n with
  | zero => intros; rfl
  | succ n ih =>
    intro rules g g'
    rw [allPasses, allPasses, map_bind, map_bind]
    refine bind_map_congr (f := Prod.fst) (hseed rules g g') ?_
    rintro ⟨a, ga⟩ ⟨b, gb⟩ hab
    simp only at hab
    subst hab
    exact ih _ _ _

theorem allPasses_stable {G : Type} {pass : List (List Cond) → G → Except PyErr (List (List Cond) × G)}
    (hseed : ∀ rules g g', (pass rules g).map Prod.fst = (pass rules g').map Prod.fst) (n : Nat) (s : List (List Cond) × G)
    (rules : List (List Cond)) (h1 : (allPasses pass n s).map Prod.fst = .ok rules)
    (h2 : (allPasses pass (n + 1) s).map Prod.fst = .ok rules) :
    ∀ k, n ≤ k → (allPasses pass k s).map Prod.fst = .ok rules := by
  intro k hk
  induction k, hk using Nat.le_induction with
  | base => exact h1
  | succ k hk ih =>
    have key : ∀ m, (allPasses pass m s).map Prod.fst = .ok rules → ∀ g',
        (allPasses pass (m + 1) s).map Prod.fst = (pass rules g').map Prod.fst := by
      intro m hm g'
      rw [allPasses_add pass 1 m s]
      cases ha : allPasses pass m s with
      | error e => rw [ha] at hm; cases hm
      | ok t =>
        rw [ha] at hm
        obtain ⟨a, b⟩ := t
        simp only [Except.map, Except.ok.injEq] at hm
        subst hm
        rw [ok_bind, hseed a g' b]
        show (pass a b >>= fun t => allPasses pass 0 t).map Prod.fst = _
        cases pass a b <;> rfl
    rw [key k ih s.2, ← key n h1 s.2, h2]

/-- `k` is not used within a pass. -/
theorem optimizeLoop_k [Arith] (fuel : Nat) (R : PyRandom) (cn : CatNap) (hp : Hyper) (k : Int) (ps : Rat) (rs : Option Int)
    (original : List (List Cond)) (odl : Rat) (allPos allNeg : List Label) :
    ∀ (rest : List (List Cond)) (i : Nat) (new : List (List Cond)) (pos neg : List Label) (g : R.G),
    optimizeLoop fuel R cn { hp with k := k } ps rs original odl allPos allNeg i rest new pos neg g =
      optimizeLoop fuel R cn hp ps rs original odl allPos allNeg i rest new pos neg g := by
  intro rest
  induction rest with
  | nil => intros; rfl
  | cons r rest ih =>
    intro i new pos neg g
    rw [optimizeLoop, optimizeLoop]
    simp only [ih]
    rfl

theorem optimizeCn_k [Arith] (fuel : Nat) (R : PyRandom) (cn : CatNap) (hp : Hyper) (k : Int) (rs : Option Int)
    (rules : List (List Cond)) (pos neg : List Label) (g : R.G) :
    optimizeCn fuel R cn { hp with k := k } rs rules pos neg g = optimizeCn fuel R cn hp rs rules pos neg g := by
  unfold optimizeCn
  simp only [optimizeLoop_k]

/-- C82, at the level of `fit`. With a `random_state`: if a pass after the first `n` changes nothing, then `fit` has the same
outcome (model or exception) for every `k` from `n` on. -/
theorem C82_enough_passes [Arith] (fuel : Nat) (R : PyRandom) (hR : R.SeedResets) (hp : Hyper) (seed : Int)
    (hs : hp.randomState = some seed) (init : List (List Cond)) (df : Frame) (cf : Feat) (pc : Val) (g : R.G)
    (cn : CatNap) (hb : CatNap.build df cf = .ok cn) (n : Nat) (rules : List (List Cond))
    (h1 : afterPasses fuel R cn hp init (labelSet (posRows df cf pc).index) (labelSet (negRows df cf pc).index) g n = .ok rules)
    (h2 : afterPasses fuel R cn hp init (labelSet (posRows df cf pc).index) (labelSet (negRows df cf pc).index) g (n + 1) =
      .ok rules) (k : Nat) (hk : n ≤ k) :
    (ripperFit fuel R { hp with k := k } init df cf pc g).map Prod.fst =
      (ripperFit fuel R { hp with k := n } init df cf pc g).map Prod.fst := by
  generalize hpos : labelSet (posRows df cf pc).index = pos at h1 h2
  generalize hneg : labelSet (negRows df cf pc).index = neg at h1 h2
  unfold afterPasses at h1 h2
  obtain ⟨st, hst, h1⟩ := bind_ok_iff.mp h1
  rw [hst, ok_bind] at h2
  have h3 : ∀ m : Nat, n ≤ m → (stage2 fuel R cn { hp with k := m } pos neg m st.rules st.g).map Prod.fst = .ok rules := by
    intro m hm
    rw [C82_seeded_passes fuel R hR cn { hp with k := m } seed hs pos neg m st.rules st.g]
    rw [hs] at h1 h2
    simp only [optimizeCn_k]
    exact allPasses_stable (fun rules g g' => optimizeCn_seeded hR rules g g') n _ rules h1 h2 m hm
  have hstage : (ripperStages fuel R cn { hp with k := k } init pos neg g).map Prod.fst =
      (ripperStages fuel R cn { hp with k := n } init pos neg g).map Prod.fst := by
    unfold ripperStages
    have hg : ∀ m : Nat, ripperGrowCn fuel R cn { hp with k := m } init pos neg g = .ok st := fun _ => hst
    rw [hg, hg, ok_bind, ok_bind, map_bind, map_bind]
    refine bind_map_congr (f := Prod.fst) ((h3 k hk).trans (h3 n (le_refl _)).symm) ?_
    rintro ⟨a, ga⟩ ⟨b, gb⟩ hab
    simp only at hab
    subst hab
    simp only
    rw [map_bind, map_bind]
    refine bind_map_congr (f := Prod.fst) (coverRemainingCn_seeded (hp := hp) hR hs _ _ _ _ _) ?_
    rintro ⟨a, ga⟩ ⟨b, gb⟩ hab
    simp only at hab
    subst hab
    simp only
    rw [map_bind, map_bind]
    rfl
  unfold ripperFit
  split
  · rfl
  split
  · rfl
  rw [hb, ok_bind, ok_bind, hpos, hneg, map_bind, map_bind]
  refine bind_map_congr (f := Prod.fst) hstage ?_
  rintro ⟨a, ga⟩ ⟨b, gb⟩ hab
  simp only at hab
  subst hab
  simp only
  rw [map_bind, map_bind]
  rfl

/-- The rules after growing and `n` passes, with `cn_optimize=False`. -/
def Spec.afterPassesPlain [Arith] (fuel : Nat) (R : PyRandom) (cands : List Cond) (hp : Hyper) (init : List (List Cond))
    (pos neg : Frame) (g : R.G) (n : Nat) : Except PyErr (List (List Cond)) := do
  let grown ← ripperGrow fuel R cands hp init pos neg g
  (allPasses (fun rules g => optimizeDf fuel R cands hp (hp.randomState.map (· + 100)) rules pos neg g) n
    (grown.rules, grown.g)).map Prod.fst

theorem optimizeLoopDf_k [Arith] (fuel : Nat) (R : PyRandom) (cands : List Cond) (hp : Hyper) (k : Int) (ps : Rat) (rs : Option Int)
    (original : List (List Cond)) (odl : Rat) (allPos allNeg : Frame) :
    ∀ (rest : List (List Cond)) (i : Nat) (new : List (List Cond)) (pos neg : Frame) (g : R.G),
    optimizeLoopDf fuel R cands { hp with k := k } ps rs original odl allPos allNeg i rest new pos neg g =
      optimizeLoopDf fuel R cands hp ps rs original odl allPos allNeg i rest new pos neg g := by
  intro rest
  induction rest with
  | nil => intros; rfl
  | cons r rest ih =>
    intro i new pos neg g
    rw [optimizeLoopDf, optimizeLoopDf]
    simp only [ih]
    rfl

theorem optimizeDf_k [Arith] (fuel : Nat) (R : PyRandom) (cands : List Cond) (hp : Hyper) (k : Int) (rs : Option Int)
    (rules : List (List Cond)) (pos neg : Frame) (g : R.G) :
    optimizeDf fuel R cands { hp with k := k } rs rules pos neg g = optimizeDf fuel R cands hp rs rules pos neg g := by
  unfold optimizeDf
  simp only [optimizeLoopDf_k]

/-- C82, `fit` with `cn_optimize=False`: if a pass after the first `n` changes nothing, then `fit` has the same outcome (model or
exception) for every `k` from `n` on. -/
theorem C82_plain_enough_passes [Arith] (fuel : Nat) (R : PyRandom) (hR : R.SeedResets) (S : SetOps) (hp : Hyper) (seed : Int)
    (hs : hp.randomState = some seed) (old : Option (List Cond)) (init : List (List Cond)) (df : Frame) (cf : Feat) (pc : Val)
    (g : R.G) (n : Nat) (rules : List (List Cond))
    (h1 : afterPassesPlain fuel R (updatedConds S old (posExamples df cf pc) (negExamples df cf pc)) hp init
      (posExamples df cf pc) (negExamples df cf pc) g n = .ok rules)
    (h2 : afterPassesPlain fuel R (updatedConds S old (posExamples df cf pc) (negExamples df cf pc)) hp init
      (posExamples df cf pc) (negExamples df cf pc) g (n + 1) = .ok rules) (k : Nat) (hk : n ≤ k) :
    (ripperFitPlain fuel R S { hp with k := k } old init df cf pc g).map Prod.fst =
      (ripperFitPlain fuel R S { hp with k := n } old init df cf pc g).map Prod.fst := by
  generalize hpos : posExamples df cf pc = pos at h1 h2
  generalize hneg : negExamples df cf pc = neg at h1 h2
  generalize hcs : updatedConds S old pos neg = cands at h1 h2
  unfold afterPassesPlain at h1 h2
  obtain ⟨st, hst, h1⟩ := bind_ok_iff.mp h1
  rw [hst, ok_bind] at h2
  have h3 : ∀ m : Nat, n ≤ m → (stage2Df fuel R cands { hp with k := m } pos neg m st.rules st.g).map Prod.fst = .ok rules := by
    intro m hm
    rw [C82_plain_seeded_passes fuel R hR cands { hp with k := m } seed hs pos neg m st.rules st.g]
    rw [hs] at h1 h2
    simp only [optimizeDf_k]
    exact allPasses_stable (fun rules g g' => optimizeDf_seeded hR rules g g') n _ rules h1 h2 m hm
  have hstage : (ripperStagesDf fuel R S { hp with k := k } old init pos neg g).map Prod.fst =
      (ripperStagesDf fuel R S { hp with k := n } old init pos neg g).map Prod.fst := by
    unfold ripperStagesDf
    simp only [hcs]
    have hg : ∀ m : Nat, ripperGrow fuel R cands { hp with k := m } init pos neg g = .ok st := fun _ => hst
    rw [hg, hg, ok_bind, ok_bind, map_bind, map_bind]
    refine bind_map_congr (f := Prod.fst) ((h3 k hk).trans (h3 n (le_refl _)).symm) ?_
    rintro ⟨a, ga⟩ ⟨b, gb⟩ hab
    simp only at hab
    subst hab
    simp only
    rw [map_bind, map_bind]
    refine bind_map_congr (f := fun x => (x.1, x.2.1)) (coverRemainingDf_seeded (hp := hp) hR hs _ _ _ _ _) ?_
    rintro ⟨a, ca, ga⟩ ⟨b, cb, gb⟩ hab
    simp only [Prod.mk.injEq] at hab
    obtain ⟨rfl, rfl⟩ := hab
    simp only
    rw [map_bind, map_bind]
    rfl
  unfold ripperFitPlain
  split
  · rfl
  split
  · rfl
  rw [hpos, hneg, map_bind, map_bind]
  refine bind_map_congr (f := Prod.fst) hstage ?_
  rintro ⟨a, ga⟩ ⟨b, gb⟩ hab
  simp only at hab
  subst hab
  simp only
  rw [map_bind, map_bind]
  rfl

/-- The hypotheses of `C82_enough_passes` can be met with `n = 1`, the first pass making a difference. -/
example : Demo.R1.SeedResets ∧
    (CatNap.build Demo.conj Demo.fc >>= fun cn => [0, 1, 2].mapM (fun n =>
      afterPasses 19 Demo.R1 cn { pruneSize := some (1 / 2), randomState := some 0, lim := { maxRuleConds := some 1 } } []
        (labelSet (posRows Demo.conj Demo.fc Demo.vp).index) (labelSet (negRows Demo.conj Demo.fc Demo.vp).index) (0 : Nat) n)) =
      .ok [[[⟨Demo.fa, Demo.vx⟩]], [[⟨Demo.fa, Demo.vx⟩, ⟨Demo.fb, Demo.vx⟩]], [[⟨Demo.fa, Demo.vx⟩, ⟨Demo.fb, Demo.vx⟩]]] := by
  refine ⟨Demo.R1_resets, ?_⟩
  decide +kernel

namespace Demo
/-- `conj` with a third column, the same in every row. -/
def conjFlat : Frame := Frame.ofTable [fa, fb, .name p!"q", fc]
  (conj.rows.map (fun r => (r.label, [r.cell fa, r.cell fb, vx, r.cell fc])))
end Demo

/-- The hypotheses of `C82_plain_enough_passes` can be met with `n = 1`, the first pass making a difference. -/
example : ([0, 1, 2].mapM (fun n =>
      afterPassesPlain 19 Demo.R1
        (updatedConds Demo.S0 none (posExamples Demo.conjFlat Demo.fc Demo.vp) (negExamples Demo.conjFlat Demo.fc Demo.vp))
        { pruneSize := some (1 / 2), randomState := some 0, lim := { maxRuleConds := some 1 } } []
        (posExamples Demo.conjFlat Demo.fc Demo.vp) (negExamples Demo.conjFlat Demo.fc Demo.vp) (0 : Nat) n)) =
      .ok [[[⟨Demo.fa, Demo.vx⟩]], [[⟨Demo.fa, Demo.vx⟩, ⟨Demo.fb, Demo.vx⟩]], [[⟨Demo.fa, Demo.vx⟩, ⟨Demo.fb, Demo.vx⟩]]] := by
  decide +kernel

end Witt
