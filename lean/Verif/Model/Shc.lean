import Verif.Model.Time
import Verif.Model.Index
import Mathlib.Data.Nat.Digits.Defs
/-!
# Model of the shc-file reader and writer, `chaosmagpy/data_utils.py` lines 219-381

Text is modelled at the level of characters (`List Char`). Numbers live in an ordered field with floor;
`'{:16.8f}'.format` rounds the exact value to eight decimals (ties to even), parsing gives the exact
decimal number (the binary rounding of both is not modelled).

Simplifications: white space is ASCII white space; the number parser of `np.fromstring(line, sep=' ')`
does not know inf and nan (it stops there as for any other text that is not a number); `nmin` is positive, the array of coefficients is two-dimensional (a
vector is one row); files and the clock are parameters (`date` is the text of the current time).
-/
namespace ChaosMagPy.Shc
open ChaosMagPy.Time
open ChaosMagPy.Index (labels nmaxOfDim)

/-- Exceptions of reader and writer. -/
inductive Error where
  | valueError
  | typeError
  | indexError
  | keyError
  | unboundLocalError
  deriving DecidableEq, Repr

/-! ### Printing of numbers -/

/-- The character of a decimal digit. -/
def digitChar (d : ℕ) : Char := Char.ofNat (48 + d)

/-- `str(n)` of a non-negative integer. -/
def natStr (n : ℕ) : List Char := if n = 0 then ['0'] else ((Nat.digits 10 n).map digitChar).reverse

/-- `str(z)` of an integer. -/
def intStr (z : ℤ) : List Char := if z < 0 then '-' :: natStr z.natAbs else natStr z.natAbs

/-- The last `k` digits of `n`, with leading zeros. -/
def padDigits : ℕ → ℕ → List Char
  | 0, _ => []
  | k + 1, n => padDigits k (n / 10) ++ [digitChar (n % 10)]

section
variable {K : Type} [Field K] [LinearOrder K] [IsStrictOrderedRing K] [FloorRing K]

/-- Rounding to the nearest integer, ties to even. -/
def roundEven (x : K) : ℤ :=
  if Int.fract x < 1 / 2 then ⌊x⌋
  else if 1 / 2 < Int.fract x then ⌊x⌋ + 1
  else if ⌊x⌋ % 2 = 0 then ⌊x⌋ else ⌊x⌋ + 1

/-- Sign, integer part, point and eight decimals. -/
def fixed8 (x : K) : List Char :=
  let r := (roundEven (|x| * 10 ^ 8)).toNat
  let body := natStr (r / 10 ^ 8) ++ '.' :: padDigits 8 (r % 10 ^ 8)
  if x < 0 then '-' :: body else body

/-- `' {:16.8f}'.format(x)`: a blank, then the number right-aligned in 16 columns
(data_utils.py:364, 373). -/
def field (x : K) : List Char :=
  ' ' :: (List.replicate (16 - (fixed8 x).length) ' ' ++ fixed8 x)

/-! ### Writer -/

/-- A two-dimensional array: one row per time. -/
structure Arr (K : Type) where
  rows : ℕ
  cols : ℕ
  get : ℕ → ℕ → K

/-- The argument `time` after `np.asarray(time, dtype=float)`: a scalar becomes a 0-d array. -/
inductive TimeArg (K : Type) where
  | scalar (t : K)
  | array (ts : List K)

/-- `time.size`. -/
def TimeArg.size : TimeArg K → ℕ
  | .scalar _ => 1
  | .array ts => ts.length

/-- A block of text written to a file, and the exception that stopped the writing, if any. -/
abbrev Written := List Char × Option Error

/-- First one block, then (if nothing was raised) the other. -/
def Written.andThen (a b : Written) : Written :=
  match a.2 with
  | none => (a.1 ++ b.1, b.2)
  | some e => (a.1, some e)

/-- The two comment lines and the parameter line, data_utils.py:355-359. -/
def commentLines (date : List Char) (leapYear : Bool) (nmin nmax N : ℕ) (order : ℤ) : List Char :=
  "# Created on ".toList ++ date ++ " UTC.".toList ++ '\n' ::
  ("# Leap years are accounted for in decimal years format (".toList ++
    (if leapYear then "True".toList else "False".toList) ++ ").".toList ++ '\n' ::
  (intStr nmin ++ ' ' :: (intStr nmax ++ ' ' :: (intStr N ++ ' ' :: (intStr order ++ ' ' ::
    (intStr (order - 1) ++ ['\n']))))))

/-- The loop over the times, data_utils.py:363-365. -/
def writeTimes (leapYear : Bool) : List K → Written
  | [] => (['\n'], none)
  | t :: ts =>
    match mjdToDyear leapYear t with
    | .error _ => ([], some .valueError)
    | .ok y => Written.andThen (field y, none) (writeTimes leapYear ts)

/-- The time line, data_utils.py:362-365; iterating over a 0-d array is a TypeError. -/
def writeTimeLine (leapYear : Bool) (time : TimeArg K) : Written :=
  Written.andThen ([' ', ' '], none)
    (match time with
     | .scalar _ => ([], some .typeError)
     | .array ts => writeTimes leapYear ts)

/-- The loop over the rows of the table, data_utils.py:368-375; `coeffs` is already cut to the degree
window. -/
def writeRows (coeffs : Arr K) : ℕ → List (ℕ × ℤ) → Written
  | _, [] => ([], none)
  | row, (n, m) :: ls =>
    Written.andThen (intStr n ++ ' ' :: intStr m, none)
      (if row < coeffs.cols then
        Written.andThen
          ((List.range coeffs.rows).flatMap (fun i => field (coeffs.get i row)) ++ ['\n'], none)
          (writeRows coeffs (row + 1) ls)
      else ([], some .indexError))

/-- `coeffs[:, (nmin**2-1):((nmax+1)**2-1)]`, data_utils.py:343. -/
def sliceCols (coeffs : Arr K) (lo hi : ℕ) : Arr K :=
  { rows := coeffs.rows, cols := min coeffs.cols hi - lo, get := fun i j => coeffs.get i (lo + j) }

open Classical in
/-- `save_shcfile(time, coeffs, order=, nmin=, nmax=, leap_year=, header=)`, data_utils.py:289-381.
The result is `error` if the call raises before the file is opened, otherwise what has been written to the
file and the exception, if any. -/
noncomputable def saveShc (date : List Char) (time : TimeArg K) (coeffs : Arr K) (order : Option ℤ)
    (nmin : Option ℕ) (nmax : Option ℤ) (leapYear : Option Bool) (header : Option (List Char)) :
    Except Error Written :=
  let order := order.getD 1
  let nmin := nmin.getD 1
  let nmax := nmax.getD (nmaxOfDim coeffs.cols)
  if (nmin : ℤ) > nmax then .error .valueError
  else
    let header := header.getD []
    let leapYear := leapYear.getD true
    let nmax := nmax.toNat
    let cut := sliceCols coeffs (nmin ^ 2 - 1) ((nmax + 1) ^ 2 - 1)
    .ok (Written.andThen (header ++ commentLines date leapYear nmin nmax time.size order, none)
      (Written.andThen (writeTimeLine leapYear time) (writeRows cut 0 (labels nmin nmax))))

/-! ### Reader -/

/-- ASCII white space. -/
def isSpace (c : Char) : Bool := c == ' ' || c == '\t' || c == '\n' || c == '\r' || c == '\x0b' || c == '\x0c'

/-- Lines of a text without their line ends (`f.readlines()`), `acc` is the current line reversed. -/
def linesGo : List Char → List Char → List (List Char)
  | [], acc => if acc = [] then [] else [acc.reverse]
  | c :: s, acc => if c = '\n' then acc.reverse :: linesGo s [] else linesGo s (c :: acc)

/-- `f.readlines()`, data_utils.py:260. -/
def lines (s : List Char) : List (List Char) := linesGo s []

/-- `line.strip().startswith('#')`, data_utils.py:262. -/
def isComment (line : List Char) : Bool :=
  match line.dropWhile isSpace with
  | '#' :: _ => true
  | _ => false

/-- White-space separated tokens, `acc` is the current token reversed. -/
def tokensGo : List Char → List Char → List (List Char)
  | [], acc => if acc = [] then [] else [acc.reverse]
  | c :: s, acc =>
    if isSpace c then (if acc = [] then tokensGo s [] else acc.reverse :: tokensGo s [])
    else tokensGo s (c :: acc)

/-- Is a decimal digit. -/
def isDigit (c : Char) : Bool := 48 ≤ c.toNat && c.toNat ≤ 57

/-- Value of a string of digits. -/
def natVal (s : List Char) : ℕ := s.foldl (fun a c => 10 * a + (c.toNat - 48)) 0

/-- An optional sign: is it a minus, and what follows. -/
def scanSign : List Char → Bool × List Char
  | '-' :: s => (true, s)
  | '+' :: s => (false, s)
  | s => (false, s)

/-- An optional exponent (`strtod`): its value and what follows; a letter without digits after it does not belong to the number. -/
def scanExponent (s : List Char) : ℤ × List Char :=
  match s with
  | [] => (0, [])
  | c :: t =>
    if c = 'e' ∨ c = 'E' then
      let (neg, u) := scanSign t
      let d := u.takeWhile isDigit
      if d = [] then (0, s) else (if neg then -(natVal d : ℤ) else natVal d, u.dropWhile isDigit)
    else (0, s)

/-- A number at the beginning of the text without sign (`strtod`): value and what follows. -/
def scanUnsigned (s : List Char) : Option (K × List Char) :=
  let a := s.takeWhile isDigit
  let r := s.dropWhile isDigit
  let f := if r.head? = some '.' then r.tail.takeWhile isDigit else []
  let r' := if r.head? = some '.' then r.tail.dropWhile isDigit else r
  if a = [] ∧ f = [] then none
  else
    let (k, rest) := scanExponent r'
    some (((natVal a : K) + (natVal f : K) / 10 ^ f.length) * 10 ^ k, rest)

/-- A number at the beginning of the text (`strtod`, without inf and nan): value and what follows. -/
def scanNum (s : List Char) : Option (K × List Char) :=
  let (neg, t) := scanSign s
  (scanUnsigned t).map fun p => (if neg then -p.1 else p.1, p.2)

/-- Value of a decimal number: the whole text is one. -/
def parseNum (s : List Char) : Option K :=
  match scanNum s with
  | some (x, []) => some x
  | _ => none

/-- Numbers up to the first token that is none; of a token that only begins with a number this number is the last one
(NumPy warns and stops there). -/
def parseAll : List (List Char) → List K
  | [] => []
  | t :: ts => match scanNum t with
    | none => []
    | some (x, []) => x :: parseAll ts
    | some (x, _) => [x]

/-- `np.fromstring(line, sep=' ')`, data_utils.py:265. -/
def fromstring (line : List Char) : List K := parseAll (tokensGo line [])

/-- Variables of the reading loop. -/
structure LoadState (K : Type) where
  values : Option (List ℤ)
  data : List K

/-- Body of the reading loop, data_utils.py:262-274. -/
def loadLine (s : LoadState K) (line : List Char) : LoadState K :=
  if isComment line then s
  else
    let newline : List K := fromstring line
    match s.values with
    | none => { s with values := some (newline.map truncZ) }
    | some _ => { s with data := s.data ++ newline }

/-- What `load_shcfile` returns. -/
structure Loaded (K : Type) where
  mjd : List K
  coeffs : List (List K)
  params : List (String × ℤ)

/-- Rows of `x.reshape((-1, w))`. -/
def chunks (w : ℕ) (x : List K) : List (List K) :=
  (List.range (x.length / w)).map fun i => (x.drop (i * w)).take w

/-- A negative number of times in the parameter line (data_utils.py:280-284): for -1, `data[:-1]` are the times, `data[-1:].reshape((-1, 1))[:, 2:]` has no columns;
for -2 and below `reshape` raises ValueError. -/
def loadNegative (leapYear : Bool) (parameters : List (String × ℤ)) (data : List K) (N : ℤ) : Except Error (Loaded K) :=
  if N < -1 then .error .valueError
  else
    match data.dropLast.mapM (dyearToMjd leapYear) with
    | .error _ => .error .valueError
    | .ok mjd => .ok { mjd, coeffs := (chunks 1 (data.drop (data.length - 1))).map (fun r => r.drop 2), params := parameters }

/-- `load_shcfile(filepath, leap_year=)`, data_utils.py:219-286, for the content of the file (default
comment sign). -/
def loadShc (leapYear : Option Bool) (content : List Char) : Except Error (Loaded K) :=
  let leapYear := leapYear.getD true
  let s : LoadState K := (lines content).foldl loadLine { values := none, data := [] }
  match s.values with
  | none => .error .unboundLocalError
  | some values =>
    let parameters := ["nmin", "nmax", "N", "order", "step"].zip values
    match parameters.lookup "N" with
    | none => .error .keyError
    | some N =>
      if N < 0 then loadNegative leapYear parameters s.data N
      else
        let time := s.data.take N.toNat
        let rest := s.data.drop N.toNat
        if rest.length % (N.toNat + 2) ≠ 0 then .error .valueError
        else
          let coeffs := (chunks (N.toNat + 2) rest).map (fun r => r.drop 2)
          match time.mapM (dyearToMjd leapYear) with
          | .error _ => .error .valueError
          | .ok mjd => .ok { mjd, coeffs, params := parameters }

end
end ChaosMagPy.Shc
