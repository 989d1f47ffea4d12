import Verif.Model.Shc
import Verif.Model.FloatTime
/-!
# shc-files in double precision, `chaosmagpy/data_utils.py` lines 219-381

Reader and writer of `Verif.Model.Shc` with doubles instead of exact numbers: `'{:16.8f}'.format` rounds the exact value of the double to eight
decimals (that is what C and Python do), `np.fromstring` returns the double next to the decimal number, and the conversions between dates and decimal years are those of
`Verif.Model.FloatTime`. The sign of zero is not modelled: a small negative number is written as -0.00000000 and read as zero.
-/
namespace ChaosMagPy.Float
open ChaosMagPy.Spec ChaosMagPy.Shc
open ChaosMagPy.Index (labels)

variable (R : Rounding)

/-- The loop over the times, data_utils.py:363-365. -/
noncomputable def writeTimes (leapYear : Bool) : List ℝ → Written
  | [] => (['\n'], none)
  | t :: ts =>
    match mjdToDyear R leapYear t with
    | .error _ => ([], some .valueError)
    | .ok y => Written.andThen (field y, none) (writeTimes leapYear ts)

/-- `save_shcfile(time, coeffs, order=, nmin=, nmax=, leap_year=, header=)`, data_utils.py:289-381, for an array of times. -/
noncomputable def saveShc (date : List Char) (time : List ℝ) (coeffs : Arr ℝ) (order : Option ℤ)
    (nmin : Option ℕ) (nmax : Option ℤ) (leapYear : Option Bool) (header : Option (List Char)) :
    Except Error Written :=
  let order := order.getD 1
  let nmin := nmin.getD 1
  let nmax := nmax.getD (degreeOf R coeffs.cols)
  if (nmin : ℤ) > nmax then .error .valueError
  else
    let header := header.getD []
    let leapYear := leapYear.getD true
    let nmax := nmax.toNat
    let cut := sliceCols coeffs (nmin ^ 2 - 1) ((nmax + 1) ^ 2 - 1)
    .ok (Written.andThen (header ++ commentLines date leapYear nmin nmax time.length order, none)
      (Written.andThen (Written.andThen ([' ', ' '], none) (writeTimes R leapYear time)) (writeRows cut 0 (labels nmin nmax))))

/-- `np.fromstring(line, sep=' ')`, data_utils.py:265: the double next to every decimal number. -/
noncomputable def fromstring (line : List Char) : List ℝ := (Shc.fromstring (K := ℝ) line).map fun x => R x

/-- Body of the reading loop, data_utils.py:262-274. -/
noncomputable def loadLine (s : LoadState ℝ) (line : List Char) : LoadState ℝ :=
  if isComment line then s
  else
    let newline := fromstring R line
    match s.values with
    | none => { s with values := some (newline.map Time.truncZ) }
    | some _ => { s with data := s.data ++ newline }

/-- `load_shcfile(filepath, leap_year=)`, data_utils.py:219-286, for the content of the file. Simplification: files with a negative number of times raise (see
`Shc.loadNegative`). -/
noncomputable def loadShc (leapYear : Option Bool) (content : List Char) : Except Error (Loaded ℝ) :=
  let leapYear := leapYear.getD true
  let s : LoadState ℝ := (lines content).foldl (loadLine R) { values := none, data := [] }
  match s.values with
  | none => .error .unboundLocalError
  | some values =>
    let parameters := ["nmin", "nmax", "N", "order", "step"].zip values
    match parameters.lookup "N" with
    | none => .error .keyError
    | some N =>
      if N < 0 then .error .valueError
      else
        let time := s.data.take N.toNat
        let rest := s.data.drop N.toNat
        if rest.length % (N.toNat + 2) ≠ 0 then .error .valueError
        else
          let coeffs := (chunks (N.toNat + 2) rest).map (fun r => r.drop 2)
          match time.mapM (dyearToMjd R leapYear) with
          | .error _ => .error .valueError
          | .ok mjd => .ok { mjd, coeffs, params := parameters }

end ChaosMagPy.Float
