import Verif.Props.Limits
import Verif.Props.Allowance
import Verif.Rounding
/-
C93 for `dl_allowance`: a smaller allowance only cuts the growing phases of RIPPER short.
-/
namespace Witt
open Spec

/-- In arithmetic without rounding, what is within a whole number of bits is within a larger one. -/
theorem C93_allowance_order (a a' : Int) (h : a ≤ a') (d : Rat) :
    Arith.exact.within d a = true → Arith.exact.within d a' = true := by
  show withinAllowance d (a : Rat) = true → withinAllowance d (a' : Rat) = true
  unfold withinAllowance
  simp only [Rat.num_intCast, Rat.den_intCast, pow_one]
  have mono : ∀ m n : Nat, m ≤ n → (4 : Rat) ^ m ≤ 4 ^ n := fun m n hmn => pow_le_pow_right₀ (by norm_num) hmn
  by_cases h0 : 0 ≤ a
  · rw [if_pos h0, if_pos (h0.trans h)]
    simp only [decide_eq_true_eq]
    exact fun hd => hd.trans (mono _ _ (by omega))
  · rw [if_neg h0]
    simp only [decide_eq_true_eq]
    intro hd
    by_cases h1 : 0 ≤ a'
    · rw [if_pos h1]
      simp only [decide_eq_true_eq]
      have h2 : (1 : Rat) ≤ 4 ^ a'.toNat := by simpa using mono 0 a'.toNat (Nat.zero_le _)
      have h3 : (1 : Rat) ≤ 4 ^ (-a).toNat := by simpa using mono 0 (-a).toNat (Nat.zero_le _)
      rcases le_total d 0 with h4 | h4
      · linarith
      · have := mul_le_mul_of_nonneg_left h3 h4
        linarith
    · rw [if_neg h1]
      simp only [decide_eq_true_eq]
      rcases le_total d 0 with h4 | h4
      · have h5 : (0 : Rat) ≤ 4 ^ (-a').toNat := by positivity
        have := mul_nonpos_of_nonpos_of_nonneg h4 h5
        linarith
      · have := mul_le_mul_of_nonneg_left (mono (-a').toNat (-a).toNat (by omega)) h4
        linarith

/-- With rounded numbers, whatever the rounding, any number of bits. -/
theorem C93_allowance_order_rounded (r : Rounding) (a a' : Rat) (h : a ≤ a') (d : Rat) :
    (Arith.rounded r).within d a = true → (Arith.rounded r).within d a' = true := by
  show decide (d ≤ a) = true → decide (d ≤ a') = true
  simp only [decide_eq_true_eq]
  exact fun hd => hd.trans h

section
variable [Arith] {R : PyRandom} {hp : Hyper} {fuel : Nat} {a : Rat}

theorem ripperStepCn_allowance {cn : CatNap} {allPos allNeg : List Label}
    (hle : ∀ d, Arith.within d a = true → Arith.within d hp.dlAllowance = true) (st : RipSt R) :
    ripperStepCn fuel R cn { hp with dlAllowance := a } allPos allNeg st = ripperStepCn fuel R cn hp allPos allNeg st ∨
    (ripperStepCn fuel R cn { hp with dlAllowance := a } allPos allNeg st = .ok (.done st) ∧
      Arith.within st.diff a = false ∧ Arith.within st.diff hp.dlAllowance = true) := by
  unfold ripperStepCn
  by_cases h0 : st.pos = []
  · left
    rw [if_pos (Or.inl h0), if_pos (Or.inl h0)]
  · cases h1 : Arith.within st.diff a with
    | true =>
      left
      rw [hle _ h1]
    | false =>
      cases h2 : Arith.within st.diff hp.dlAllowance with
      | true => right; exact ⟨by simp [pure_eq_ok], rfl, rfl⟩
      | false => left; simp

theorem ripperStep_allowance {cands : List Cond} {allPos allNeg : Frame}
    (hle : ∀ d, Arith.within d a = true → Arith.within d hp.dlAllowance = true) (st : FrameRipSt R) :
    ripperStep fuel R cands { hp with dlAllowance := a } allPos allNeg st = ripperStep fuel R cands hp allPos allNeg st ∨
    (ripperStep fuel R cands { hp with dlAllowance := a } allPos allNeg st = .ok (.done st) ∧
      Arith.within st.diff a = false ∧ Arith.within st.diff hp.dlAllowance = true) := by
  unfold ripperStep
  by_cases h0 : st.pos.rows = []
  · left
    rw [if_pos (Or.inl h0), if_pos (Or.inl h0)]
  · cases h1 : Arith.within st.diff a with
    | true =>
      left
      rw [hle _ h1]
    | false =>
      cases h2 : Arith.within st.diff hp.dlAllowance with
      | true => right; exact ⟨by simp [pure_eq_ok], rfl, rfl⟩
      | false => left; simp

end

/-- C93 for `dl_allowance`, RIPPER with and without the index: with a smaller allowance a growing phase comes back whenever it does
with the larger one, and has learned the same first rules; it has learned all of them, unless the difference in description length was
within the larger allowance and not within the smaller one. -/
theorem C93_allowance [Arith] (fuel : Nat) (R : PyRandom) (hp : Hyper) (a : Rat)
    (hle : ∀ d, Arith.within d a = true → Arith.within d hp.dlAllowance = true) (init : List (List Cond)) (g : R.G) :
    (∀ (cn : CatNap) (pos neg : List Label) (st' : RipSt R), ripperGrowCn fuel R cn hp init pos neg g = .ok st' →
      ∃ st, ripperGrowCn fuel R cn { hp with dlAllowance := a } init pos neg g = .ok st ∧ init <+: st.rules ∧ st.rules <+: st'.rules ∧
        (st = st' ∨ (Arith.within st.diff a = false ∧ Arith.within st.diff hp.dlAllowance = true))) ∧
    (∀ (cands : List Cond) (pos neg : Frame) (st' : FrameRipSt R), ripperGrow fuel R cands hp init pos neg g = .ok st' →
      ∃ st, ripperGrow fuel R cands { hp with dlAllowance := a } init pos neg g = .ok st ∧ init <+: st.rules ∧ st.rules <+: st'.rules ∧
        (st = st' ∨ (Arith.within st.diff a = false ∧ Arith.within st.diff hp.dlAllowance = true))) := by
  constructor
  · intro cn pos neg st' h
    obtain ⟨_, st, h1, h2, h3, h4⟩ := pyWhile_cut (body := ripperStepCn fuel R cn { hp with dlAllowance := a } pos neg)
      (body' := ripperStepCn fuel R cn hp pos neg)
      (stop := fun st => Arith.within st.diff a = false ∧ Arith.within st.diff hp.dlAllowance = true)
      (le := fun s s' => s.rules <+: s'.rules) (fun _ => List.prefix_refl _) (fun _ _ _ h1 h2 => h1.trans h2)
      (ripperStepCn_allowance hle) (fun _ _ h => ripperStepCn_grows (.inl h)) (fun _ _ h => ripperStepCn_grows (.inr h)) _ _ _ h
    exact ⟨st, h1, h2, h3, h4⟩
  · intro cands pos neg st' h
    obtain ⟨_, st, h1, h2, h3, h4⟩ := pyWhile_cut (body := ripperStep fuel R cands { hp with dlAllowance := a } pos neg)
      (body' := ripperStep fuel R cands hp pos neg)
      (stop := fun st => Arith.within st.diff a = false ∧ Arith.within st.diff hp.dlAllowance = true)
      (le := fun s s' => s.rules <+: s'.rules) (fun _ => List.prefix_refl _) (fun _ _ _ h1 h2 => h1.trans h2)
      (ripperStep_allowance hle) (fun _ _ h => ripperStep_grows (.inl h)) (fun _ _ h => ripperStep_grows (.inr h)) _ _ _ h
    exact ⟨st, h1, h2, h3, h4⟩

namespace Demo
/-- What RIPPER grows first within an allowance. -/
def grownWithin (df : Frame) (a : Rat) : Option (List (List Cond)) :=
  (CatNap.build df fc).toOption.bind fun cn =>
    (ripperGrowCn 19 R0 cn { pruneSize := some (1 / 2), dlAllowance := a } [] (labelSet (posRows df fc vp).index)
      (labelSet (negRows df fc vp).index) ()).toOption.map RipSt.rules
end Demo

/-- With the default allowance the growing phase learns a rule; with an allowance of -1 bits it stops before the first one. -/
example : Demo.grownWithin Demo.conj 64 = some [[⟨Demo.fa, Demo.vx⟩, ⟨Demo.fb, Demo.vx⟩]] ∧ Demo.grownWithin Demo.conj (-1) = some [] := by
  constructor <;> decide +kernel

end Witt
