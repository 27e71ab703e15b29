import Mathlib.Algebra.Order.Field.Rat
import Verif.Value
import Verif.Arith
/-
Python's global random generator and the grow/prune splits (wittgenstein/base_functions.py).
-/
namespace Witt
variable [Arith]

/-- Python's global generator: its states, `random.seed(a)` and `random.shuffle(list)`.
`seed none` reseeds from the operating system, so its result may be anything: the state type can hold an
arbitrary tape of outcomes. `shuffle` also stands for the order in which `list(set)` enumerates a set. -/
structure PyRandom where
  G : Type
  seed : Option Int → G → G
  shuffle : G → List Label → List Label × G

/-- All that is assumed of `shuffle` unless a theorem says otherwise: it permutes the list. -/
def PyRandom.Lawful (R : PyRandom) : Prop := ∀ g l, (R.shuffle g l).1.Perm l

/-- `seed(n)` for a number `n` forgets the previous state (used for reproducibility only). -/
def PyRandom.SeedResets (R : PyRandom) : Prop := ∀ (s : Int) g g', R.seed (some s) g = R.seed (some s) g'

/-- base_functions.py 673-691 `random_split`, and 655-670 `set_shuffled_split` (the same code):
seed, shuffle, cut at `int(len * split_size)`. -/
def randomSplit (R : PyRandom) (g : R.G) (l : List Label) (splitSize : Rat) (rs : Option Int) :
    List Label × List Label × R.G :=
  let (sh, g') := R.shuffle (R.seed rs g) l
  let at_ := Arith.cut sh.length splitSize
  (sliceTo sh at_, sliceFrom sh at_, g')

/-- base_functions.py 638-652: `df_shuffled_split`. -/
def dfShuffledSplit (R : PyRandom) (g : R.G) (df : Frame) (splitSize : Rat) (rs : Option Int) :
    Frame × Frame × R.G :=
  let (a, b, g') := randomSplit R g df.index splitSize rs
  (df.loc a, df.loc b, g')

end Witt
