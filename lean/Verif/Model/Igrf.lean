import Verif.Model.Shc
import Verif.Model.BSpline
/-!
# Model of the IGRF loader, `chaosmagpy/chaos.py` lines 3042-3137

The content of the file is a list of characters. Words are parsed as decimal numbers
(`Shc.parseNum`; Python's `float` also knows inf, nan and underscores, which the IGRF files do not contain). The name of the model and its source are not modelled.
-/
namespace ChaosMagPy.Igrf
open ChaosMagPy.Shc (lines isSpace tokensGo parseNum)

/-- Exceptions of the loader. -/
inductive Error where
  | valueError
  | indexError
  | unboundLocalError
  deriving DecidableEq, Repr

/-- `line.lstrip().startswith(('#', 'c/s'))`, chaos.py:3110. -/
def skipped (line : List Char) : Bool :=
  ['#'].isPrefixOf (line.dropWhile isSpace) || ['c', '/', 's'].isPrefixOf (line.dropWhile isSpace)

/-- `np.array(words, dtype=float)`: a word that is not a number is a ValueError. -/
noncomputable def floats (ws : List (List Char)) : Except Error (List ℝ) :=
  match ws.mapM (m := Option) (parseNum (K := ℝ)) with
  | none => .error .valueError
  | some xs => .ok xs

/-- Variables of the reading loop: `breaks` is unbound until the first line that is not a comment. -/
structure State where
  breaks : Option (List ℝ)
  data : List ℝ

/-- Body of the reading loop, chaos.py:3108-3123. -/
noncomputable def readLine (s : State) (line : List Char) : Except Error State :=
  if skipped line then .ok s
  else
    let tmp := tokensGo line []
    match s.breaks with
    | none =>
      match floats (tmp.dropLast.drop 3) with                       -- tmp[3:-1]
      | .error e => .error e
      | .ok breaks =>
        match breaks.getLast? with
        | none => .error .indexError                                -- breaks[-1] of an empty array
        | some y => .ok { s with breaks := some (breaks ++ [y + 5]) }
    | some _ =>
      match floats (tmp.drop 3) with
      | .error e => .error e
      | .ok newline => .ok { s with data := s.data ++ newline }

/-- Entry `[i, j]` of `data` after `data[:, -1] = 5*data[:, -1] + data[:, -2]`, chaos.py:3125-3126, where `n` is the
number of columns (at least two). -/
noncomputable def entry (data : List ℝ) (n i j : ℕ) : ℝ :=
  if j = n - 1 then 5 * data.getD (i * n + (n - 1)) 0 + data.getD (i * n + (n - 2)) 0
  else data.getD (i * n + j) 0

open Classical in
/-- `load_IGRF_txtfile(filepath)`, chaos.py:3042-3137, for the content of the file. Years that `dyear_to_mjd` refuses
and unsorted knots (refused by SciPy's `BSpline`, which is called for every coefficient) are ValueErrors. -/
noncomputable def load (content : List Char) : Except Error PPoly.Base := do
  let s ← (lines content).foldlM readLine { breaks := none, data := [] }
  match s.breaks with
  | none => throw .unboundLocalError
  | some breaks =>
    let n := breaks.length
    if s.data.length % n ≠ 0 then throw .valueError            -- reshape
    let order : ℕ := 2
    match breaks.mapM (Time.dyearToMjd true) with
    | .error _ => throw .valueError
    | .ok mjd =>
      if s.data ≠ [] ∧ ¬ mjd.Pairwise (· ≤ ·) then throw .valueError
      return BSpline.fromBspline (BSpline.augmentBreaks mjd order) (fun j i => entry s.data n i j) (s.data.length / n) order

end ChaosMagPy.Igrf
