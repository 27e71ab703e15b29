/-
Python runtime notions used by the model: text, exceptions, slices, truncation.
Nothing here is wittgenstein code; each item states the Python behaviour it stands for.
-/
namespace Witt

/-- Python `str`, as its list of code points. -/
abbrev PStr := List Char

open Lean in
/-- `p!"abc"` is the `PStr` `['a','b','c']` (a literal list, so the kernel can compute with it). -/
macro:max "p!" s:str : term => do
  let cs := s.getString.toList
  let elems : Array (TSyntax `term) := (cs.map fun c => ⟨Syntax.mkCharLit c⟩).toArray
  `(([$elems,*] : List Char))

/-- Python exception classes raised (or avoided) by the modelled code.
`diverged` is not an exception: it marks a `while` loop whose fuel ran out. -/
inductive PyErr
  | keyError | indexError | valueError | typeError | attributeError | nameError
  | zeroDivision | unboundLocal | overflow | diverged
  deriving DecidableEq, Repr

/-- `Except PyErr α` has decidable equality when `α` has (used only by closed examples). -/
instance {α : Type} [DecidableEq α] : DecidableEq (Except PyErr α)
  | .ok a, .ok b => if h : a = b then isTrue (by rw [h]) else isFalse (by intro e; cases e; exact h rfl)
  | .error a, .error b =>
      if h : a = b then isTrue (by rw [h]) else isFalse (by intro e; cases e; exact h rfl)
  | .ok _, .error _ => isFalse (by intro e; cases e)
  | .error _, .ok _ => isFalse (by intro e; cases e)

/-! ### `str` methods -/

/-- `s.split(c)` for a one-character separator `c` (always at least one piece). -/
def splitChar (c : Char) : PStr → List PStr
  | [] => [[]]
  | x :: xs =>
    if x = c then [] :: splitChar c xs
    else match splitChar c xs with
      | [] => [[x]]
      | p :: ps => (x :: p) :: ps

/-- Worker of `splitSub`: `skip` characters of a matched separator are still to be consumed. -/
def splitSubAux (sep : PStr) : Nat → PStr → List PStr
  | _, [] => [[]]
  | skip + 1, _ :: xs => splitSubAux sep skip xs
  | 0, x :: xs =>
    if sep.isPrefixOf (x :: xs) then [] :: splitSubAux sep (sep.length - 1) xs
    else match splitSubAux sep 0 xs with
      | [] => [[x]]
      | p :: ps => (x :: p) :: ps

/-- `s.split(sep)` for a non-empty separator: leftmost, non-overlapping. -/
def splitSub (sep s : PStr) : List PStr := splitSubAux sep 0 s

/-- `s.replace(c, "")` for a one-character `c`. -/
def dropChar (c : Char) (s : PStr) : PStr := s.filter (fun x => x != c)

/-- `s.replace(a, b)` for one-character `a`; `b` may be any text. -/
def replChar (a : Char) (b : PStr) (s : PStr) : PStr := s.flatMap (fun x => if x = a then b else [x])

/-- `str.isspace` of one character, the set `str.strip()` removes. -/
def pyIsSpace (c : Char) : Bool :=
  let n := c.toNat
  (9 ≤ n && n ≤ 13) || (28 ≤ n && n ≤ 32) || n == 133 || n == 160 || n == 5760 ||
  (8192 ≤ n && n ≤ 8202) || n == 8232 || n == 8233 || n == 8239 || n == 8287 || n == 12288

/-- `s.strip()`. -/
def pyStrip (s : PStr) : PStr :=
  ((s.dropWhile pyIsSpace).reverse.dropWhile pyIsSpace).reverse

/-- `sep.join(pieces)`. -/
def pyJoin (sep : PStr) : List PStr → PStr
  | [] => []
  | [p] => p
  | p :: q :: ps => p ++ sep ++ pyJoin sep (q :: ps)

/-- Two-digit lower-case hexadecimal. -/
def hex2 (n : Nat) : PStr := [Nat.digitChar (n / 16), Nat.digitChar (n % 16)]

/-- Four-digit lower-case hexadecimal. -/
def hex4 (n : Nat) : PStr := hex2 (n / 256) ++ hex2 (n % 256)

/-- One character inside `repr(s)` with quote character `q`.
Simplification: of the characters beyond U+00A0, only white space is taken to be non-printable. -/
def reprChar (q : Char) (c : Char) : PStr :=
  if c = '\\' then ['\\', '\\']
  else if c = q then ['\\', q]
  else if c = '\n' then ['\\', 'n']
  else if c = '\r' then ['\\', 'r']
  else if c = '\t' then ['\\', 't']
  else if c.toNat < 32 ∨ (127 ≤ c.toNat ∧ c.toNat ≤ 160) then ['\\', 'x'] ++ hex2 c.toNat
  else if c ≠ ' ' ∧ pyIsSpace c then ['\\', 'u'] ++ hex4 c.toNat
  else [c]

/-- `repr(s)`: single quotes, unless `s` has a single quote and no double quote. -/
def pyRepr (s : PStr) : PStr :=
  let q := if s.contains '\'' && !s.contains '"' then '"' else '\''
  [q] ++ s.flatMap (reprChar q) ++ [q]

/-- `str([s1, s2, ...])` for a list of strings. -/
def pyReprList (l : List PStr) : PStr := ['['] ++ pyJoin [',', ' '] (l.map pyRepr) ++ [']']

/-! ### numbers and slices -/

/-- `int(q)`: truncation toward zero. -/
def pyTrunc (q : Rat) : Int := if q < 0 then - (-q).floor else q.floor

/-- Resolve a slice bound: negative bounds count from the end, then clamp at 0. -/
def sliceBound (len : Nat) (k : Int) : Nat := if k < 0 then (len + k).toNat else k.toNat

/-- `l[:k]`. -/
def sliceTo {α : Type} (l : List α) (k : Int) : List α := l.take (sliceBound l.length k)

/-- `l[k:]`. -/
def sliceFrom {α : Type} (l : List α) (k : Int) : List α := l.drop (sliceBound l.length k)

end Witt
