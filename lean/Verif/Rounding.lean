import Mathlib.Analysis.SpecialFunctions.Log.Base
import Verif.Arith
/-
The arithmetic of IEEE doubles, up to what is left open about it: `Rounding` describes any rounding of real numbers to
rational ones and any computation of logarithms; `Arith.rounded` is the program's arithmetic with it.
-/
namespace Witt

/-- A floating-point format and its mathematical library, overflow apart. For IEEE doubles with rounding to nearest,
`u = 2^-53`, `least = 2^-1022` and `N = 2^53`, whatever the library, if `math.log2` is monotone and errs by at most `w`
relatively (`w = 2^-52` is one unit in the last place). -/
structure Rounding where
  /-- the double nearest to a real number -/
  fl : ℝ → Rat
  /-- `math.log2` of a double -/
  lg : Rat → Rat
  /-- `math.log2` of an int -/
  lgInt : Int → Rat
  u : ℝ
  w : ℝ
  least : ℝ
  N : Nat
  u_pos : 0 < u
  u_le : u ≤ 1 / 4
  w_nonneg : 0 ≤ w
  least_le : least * (4 * N) ≤ 1
  least_pos : 0 < least
  N_pos : 1 ≤ N
  N_le : u * N ≤ 1
  mono : ∀ x y, x ≤ y → fl x ≤ fl y
  near : ∀ x, least ≤ |x| → |(fl x : ℝ) - x| ≤ u * |x|
  int : ∀ n : Nat, n ≤ N → fl n = n
  lg_mono : ∀ x y, 0 < x → x ≤ y → lg x ≤ lg y
  lg_near : ∀ x, 0 < x → |(lg x : ℝ) - Real.logb 2 x| ≤ w * |Real.logb 2 x|

namespace Rounding
variable (r : Rounding)

/-- base_functions.py 435-438, 451-454: the gain, each operation rounded. -/
noncomputable def gain (p0 n0 p1 n1 : Nat) : Rat :=
  r.fl (r.fl p1 * r.fl (r.lg (r.fl ((p1 + 1) / (p1 + n1 + 1))) - r.lg (r.fl ((p0 + 1) / (p0 + n0 + 1)))))

/-- An increasing image of the rationals in the positive ones in which 0 becomes 1. -/
def image (x : Rat) : Rat := if 0 ≤ x then 1 + x else 1 / (1 - x)

/-- ripper.py 1248-1262: the bits of a rule, each operation rounded. -/
noncomputable def ruleBits (n k : Nat) : Rat :=
  let pr := r.fl (k / n)
  let S := r.fl (r.fl (r.fl k * r.lg (r.fl (1 / pr))) + r.fl (r.fl (n - k) * r.lg (r.fl (1 / r.fl (1 - pr)))))
  max (r.fl (1 / 2 * r.fl (r.lgInt k + S))) 1

end Rounding

/-- The program's arithmetic with rounding. Collections of more than `N` (for doubles, 2^53) elements do not exist; what it
is given for them is of no consequence (the exact values). -/
@[instance_reducible] noncomputable def Arith.rounded (r : Rounding) : Arith where
  gain p0 n0 p1 n1 :=
    if p0 + n0 < r.N ∧ p1 + n1 < r.N then Rounding.image (r.gain p0 n0 p1 n1) else gainExp p0 n0 p1 n1
  quot a b := if b ≤ r.N then r.fl (a / b) else (a : Rat) / b
  ruleBits := r.ruleBits
  log2 := r.lgInt
  zeroDl := 0
  addDl a b := r.fl (a + b)
  subDl a b := r.fl (a - b)
  within d a := decide (d ≤ a)
  complement ps := r.fl (1 - ps)
  cut n q := if n ≤ r.N then pyTrunc (r.fl (r.fl n * q)) else pyTrunc ((n : Rat) * q)

end Witt
