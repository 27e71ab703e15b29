import Verif.Discretize
import Verif.Lemmas.Text
import Mathlib.Tactic.NormNum
import Mathlib.Data.Rat.Floor
/-
A concrete instance of the float texts, used by the examples: whole-number floats.
-/
namespace Witt
namespace Demo

/-- Unsigned decimal text: digits, optionally a point and more digits. -/
def parseUnsigned (s : PStr) : Option Rat :=
  match splitChar '.' s with
  | [a] => if a ≠ [] ∧ a.all Char.isDigit then some (Nat.ofDigitChars 10 a 0 : Rat) else none
  | [a, b] =>
    if a ≠ [] ∧ a.all Char.isDigit ∧ b.all Char.isDigit then
      some ((Nat.ofDigitChars 10 a 0 : Rat) + (Nat.ofDigitChars 10 b 0 : Rat) / (10 ^ b.length : Nat)) else none
  | _ => none

/-- `float(text)` on plain decimal texts and infinities. -/
def parseDecimal (s : PStr) : Option Ext :=
  if s = p!"inf" then some .pinf
  else if s = p!"-inf" then some .ninf
  else match s with
    | '-' :: t => (parseUnsigned t).map (fun q => .fin (-q))
    | _ => (parseUnsigned s).map .fin

/-- Whole-number floats, printed as Python prints them (`3.0`, `-12.0`), and read back as decimals. -/
def F : PyFloat where
  Rep q := q.den = 1
  shown q := intText q.num ++ p!".0"
  parse := parseDecimal

theorem toDigits_digits (n : Nat) : (Nat.toDigits 10 n).all Char.isDigit := by
  rw [List.all_eq_true]
  intro c hc
  exact Nat.isDigit_of_mem_toDigits (by decide) (by decide) hc

theorem digit_ne {c d : Char} {n : Nat} (hd : d.isDigit = false) (hc : c ∈ Nat.toDigits 10 n) : c ≠ d := by
  rintro rfl
  have := List.all_eq_true.mp (toDigits_digits n) c hc
  rw [hd] at this; cases this

theorem parseUnsigned_shown (n : Nat) : parseUnsigned (Nat.toDigits 10 n ++ p!".0") = some (n : Rat) := by
  have hdot : '.' ∉ Nat.toDigits 10 n := fun h => digit_ne (d := '.') (by decide) h rfl
  have hsplit : splitChar '.' (Nat.toDigits 10 n ++ p!".0") = [Nat.toDigits 10 n, p!"0"] := by
    rw [show Nat.toDigits 10 n ++ p!".0" = Nat.toDigits 10 n ++ '.' :: p!"0" from rfl, splitChar_append _ _ _ hdot]
    rfl
  unfold parseUnsigned
  rw [hsplit]
  have h0 : Nat.toDigits 10 n ≠ [] := Nat.toDigits_ne_nil
  have h1 := toDigits_digits n
  have h2 : (p!"0" : PStr).all Char.isDigit = true := by decide
  simp only [h0, h1, h2, ne_eq, not_false_eq_true, and_self, if_true, Nat.ofDigitChars_ten_toDigits]
  norm_num [Nat.ofDigitChars]

theorem F_lawful : F.Lawful where
  round_trip q hq := by
    have hn : (q.num : Rat) = q := Rat.coe_int_num_of_den_eq_one hq
    show parseDecimal (intText q.num ++ p!".0") = _
    cases hi : q.num with
    | ofNat n =>
      have h1 : intText (Int.ofNat n) ++ p!".0" ≠ p!"inf" := by
        intro h
        have : '.' ∈ (p!"inf" : PStr) := by rw [← h]; simp
        exact absurd this (by decide)
      have h2 : intText (Int.ofNat n) ++ p!".0" ≠ p!"-inf" := by
        intro h
        have : '.' ∈ (p!"-inf" : PStr) := by rw [← h]; simp
        exact absurd this (by decide)
      unfold parseDecimal
      rw [if_neg h1, if_neg h2]
      have hp := parseUnsigned_shown n
      have hq' : (n : Rat) = q := by rw [← hn, hi]; rfl
      have : intText (Int.ofNat n) = Nat.toDigits 10 n := rfl
      rw [this]
      split
      · rename_i t ht
        obtain ⟨c, cs, hcs⟩ := List.exists_cons_of_ne_nil (Nat.toDigits_ne_nil (n := n) (b := 10))
        rw [hcs] at ht
        simp only [List.cons_append, List.cons.injEq] at ht
        exact absurd ht.1 (digit_ne (n := n) (d := '-') (by decide) (by rw [hcs]; simp))
      · rw [hp]; simp [hq']
    | negSucc n =>
      have h1 : intText (Int.negSucc n) ++ p!".0" ≠ p!"inf" := by
        intro h
        have : '.' ∈ (p!"inf" : PStr) := by rw [← h]; simp
        exact absurd this (by decide)
      have h2 : intText (Int.negSucc n) ++ p!".0" ≠ p!"-inf" := by
        intro h
        have : '.' ∈ (p!"-inf" : PStr) := by rw [← h]; simp
        exact absurd this (by decide)
      unfold parseDecimal
      rw [if_neg h1, if_neg h2]
      have hp := parseUnsigned_shown (n + 1)
      have hq' : -((n + 1 : Nat) : Rat) = q := by rw [← hn, hi]; simp
      have : intText (Int.negSucc n) ++ p!".0" = '-' :: (Nat.toDigits 10 (n + 1) ++ p!".0") := rfl
      rw [this]
      simp only [hp, Option.map_some, hq']
  plain q _ := by
    have : ∀ d : Char, d.isDigit = false → d ≠ '-' → d ≠ '.' → d ∉ F.shown q := by
      intro d hd h1 h2 h
      have h' : d ∈ intText q.num ++ p!".0" := h
      rcases List.mem_append.mp h' with h | h
      · cases hi : q.num with
        | ofNat n => rw [hi] at h; exact digit_ne hd (show d ∈ Nat.toDigits 10 n from h) rfl
        | negSucc n =>
          rw [hi] at h
          rcases List.mem_cons.mp (show d ∈ '-' :: Nat.toDigits 10 (n + 1) from h) with h | h
          · exact h1 h
          · exact digit_ne hd h rfl
      · simp only [List.mem_cons, List.not_mem_nil, or_false] at h
        rcases h with h | h
        · exact h2 h
        · rw [h] at hd; exact absurd hd (by decide)
    exact ⟨this ' ' (by decide) (by decide) (by decide), this '<' (by decide) (by decide) (by decide),
      this '>' (by decide) (by decide) (by decide)⟩
  pos_inf := by decide
  neg_inf := by decide

end Demo
end Witt
