import Verif.Model.Shc
import Verif.Model.BSpline
/-!
# Model of the readers of spline models, `chaosmagpy/chaos.py` lines 2827-3039, at the level of characters

The content of the file is a list of characters (after the translation of line ends by `open`). What the readers do with the numbers is
modelled in `BSpline`. Names are not modelled.
-/
namespace ChaosMagPy.SplineText
open ChaosMagPy.Shc (fromstring)

/-- Lines with their line ends, `acc` is the current line reversed. -/
def readlinesGo : List Char → List Char → List (List Char)
  | [], acc => if acc = [] then [] else [acc.reverse]
  | c :: s, acc => if c = '\n' then (c :: acc).reverse :: readlinesGo s [] else readlinesGo s (c :: acc)

/-- `f.readlines()`, chaos.py:2828 and 2918. -/
def readlines (s : List Char) : List (List Char) := readlinesGo s []

/-- `sep.join(lines)`. -/
def join (sep : List Char) (ls : List (List Char)) : List Char := (ls.intersperse sep).flatten

/-- `load_CovObs_txtfile(filepath)`, chaos.py:2827-2856, for the content of the file. -/
noncomputable def loadCovObs (content : List Char) : Except Synth.Error PPoly.Base :=
  let lines := readlines content
  match lines[1]? with
  | none => .error .indexError
  | some line =>
    let tmp : List ℝ := fromstring line
    if tmp.length < 3 then .error .indexError
    else BSpline.loadCovObs tmp (fromstring (join [' '] (lines.drop 2)))

/-- `load_gufm1_txtfile(filepath)`, chaos.py:2917-2945, for the content of the file. -/
noncomputable def loadGufm1 (content : List Char) : Except Synth.Error PPoly.Base :=
  let lines := readlines content
  let data : List ℝ := fromstring (join [' ', ' '] (lines.drop 1))
  if data.length < 2 then .error .indexError else BSpline.loadGufm1 data

/-- `load_CALS7K_txtfile(filepath)`, chaos.py:3001-3039, for the content of the file. -/
noncomputable def loadCals7k (content : List Char) : Except Synth.Error PPoly.Base :=
  let data : List ℝ := fromstring (content.map fun c => if c = 'D' then 'E' else c)
  if data.length < 7 then .error .indexError else BSpline.loadCals7k data

end ChaosMagPy.SplineText
