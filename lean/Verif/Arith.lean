import Mathlib.Algebra.Order.Field.Rat
import Verif.Py
/-
The floating-point arithmetic that steers training, as a parameter.

The code compares gains, prune metrics and description lengths that Python computes with IEEE doubles, whose values are
rational numbers. `Arith` collects these computations; the training code of the model is written over any `Arith`, and so
is every theorem that says `[Arith]`. `Arith.exact` computes without rounding, logarithms being carried through their
exponentials (Bridge theorems in Props/Gain.lean and Props/Bits.lean); definitions and theorems that name no `[Arith]`
are about `Arith.exact`. `Arith.Lawful` states what is assumed of the rounded computations where anything is; that
doubles satisfy it is proved from monotone rounding in Props/Rounding.lean.
-/
namespace Witt

/-- What training computes with floating-point numbers. A gain is given by an increasing image of it in which 0 becomes 1
and minus infinity becomes 0. -/
class Arith where
  /-- base_functions.py 435-438, 451-454: `p1 * (log2((p1+1)/(p1+n1+1)) - log2((p0+1)/(p0+n0+1)))` for the counts
  `p0 n0 p1 n1`. -/
  gain : Nat → Nat → Nat → Nat → Rat
  /-- `a / b` for integers: the prune metrics, accuracy and precision, irep.py 457-474, ripper.py 1202-1237,
  base_functions.py 457-532. -/
  quot : Int → Int → Rat
  /-- ripper.py 1240-1262: `_r_theory_bits` for `n` possible conditions and `k` of them, `1 ≤ k < n`. -/
  ruleBits : Nat → Nat → Rat
  /-- `math.log2` of a positive integer, ripper.py 1299-1301, 1325-1327. -/
  log2 : Int → Rat
  /-- The description length 0. -/
  zeroDl : Rat
  /-- `a + b` of description lengths. -/
  addDl : Rat → Rat → Rat
  /-- `a - b` of description lengths. -/
  subDl : Rat → Rat → Rat
  /-- `dl_diff <= dl_allowance`, ripper.py 457, 588. -/
  within : Rat → Rat → Bool
  /-- `1 - prune_size`. -/
  complement : Rat → Rat
  /-- `int(len * split_size)`, base_functions.py 646, 665, 683. -/
  cut : Nat → Rat → Int

/-- `2^gain` for `gain = p1 * (log2((p1+1)/(p1+n1+1)) - log2((p0+1)/(p0+n0+1)))`,
base_functions.py 435-438, 451-454. -/
def gainExp (p0 n0 p1 n1 : Nat) : Rat :=
  ((((p1 : Rat) + 1) / (p1 + n1 + 1)) / (((p0 : Rat) + 1) / (p0 + n0 + 1))) ^ p1

/-- `dl_diff <= dl_allowance`, for `ratio = 2^(2*dl_diff)` and a rational allowance `a = p/q`:
`ratio^q <= 4^p`. -/
def withinAllowance (ratio a : Rat) : Bool :=
  if 0 ≤ a.num then decide (ratio ^ a.den ≤ (4 : Rat) ^ a.num.toNat)
  else decide (ratio ^ a.den * (4 : Rat) ^ (-a.num).toNat ≤ 1)

/-- Arithmetic without rounding: a gain `g` is represented by `2^g`, a description length `b` by `2^(2*b)`, so that sums
become products. -/
instance Arith.exact : Arith where
  gain := gainExp
  quot a b := (a : Rat) / (b : Rat)
  ruleBits n k := max ((k : Rat) * ((n : Rat) / k) ^ k * ((n : Rat) / ((n : Rat) - k)) ^ (n - k)) 4
  log2 x := (x : Rat) ^ 2
  zeroDl := 1
  addDl a b := a * b
  subDl a b := a / b
  within := withinAllowance
  complement ps := 1 - ps
  cut n q := pyTrunc ((n : Rat) * q)

/-- What is assumed of the rounded computations: gains are finite; a refinement whose gain is positive keeps a positive
example and loses a negative one, and no gain comes of no change; a
quotient of 0 is 0 and one of natural numbers is not negative; one below 1/2 is not
rounded up to 1/2; the difference 0 is within every allowance from 0 on; `1 - 0` is 1; and a share between 0 and 1 of `n`
elements, rounded down, is between 0 and `n`, all of them for the share 1. -/
class Arith.Lawful [Arith] : Prop where
  gain_pos : ∀ p0 n0 p1 n1, 0 < Arith.gain p0 n0 p1 n1
  gain_loses : ∀ p0 n0 p1 n1, p1 ≤ p0 → 1 < Arith.gain p0 n0 p1 n1 → 1 ≤ p1 ∧ n1 < n0
  gain_same : ∀ p n, Arith.gain p n p n = 1
  quot_zero : ∀ b, 0 < b → Arith.quot 0 b = 0
  quot_nonneg : ∀ a b, 0 ≤ a → 0 < b → 0 ≤ Arith.quot a b
  quot_half : ∀ a b, 0 < b → 1 / 2 ≤ Arith.quot a b → b ≤ 2 * a
  within_zero : ∀ a, 0 ≤ a → Arith.within Arith.zeroDl a = true
  complement_zero : Arith.complement 0 = 1
  complement_range : ∀ q, 0 ≤ q → q ≤ 1 → 0 ≤ Arith.complement q ∧ Arith.complement q ≤ 1
  cut_range : ∀ n q, 0 ≤ q → q ≤ 1 → 0 ≤ Arith.cut n q ∧ Arith.cut n q ≤ n
  cut_one : ∀ n, Arith.cut n 1 = n

/-- What is assumed beyond that in the theorems on reproducing the training data (C69): a refinement of a rule that covers
at most `m` examples, if it keeps a positive example and has the larger smoothed precision `(p+1)/(p+n+1)`, has a positive
gain even after rounding. -/
def Arith.SharpUpTo [Arith] (m : Nat) : Prop :=
  ∀ p0 n0 p1 n1, p0 + n0 ≤ m → p1 ≤ p0 → n1 ≤ n0 → 1 ≤ p1 → n1 * (p0 + 1) < n0 * (p1 + 1) → 1 < Arith.gain p0 n0 p1 n1

/-- Splitting off the share `1 - prune_size` of a non-empty collection leaves something for the prune set. Without rounding
this is `0 < prune_size ≤ 1`; with rounding, `1 - prune_size` must not round to 1. -/
def Arith.LeavesSome [Arith] (ps : Rat) : Prop :=
  ∀ n, 0 < n → 0 ≤ Arith.cut n (Arith.complement ps) ∧ Arith.cut n (Arith.complement ps) < n

end Witt
