import Verif.Model.Config
/-!
# Specification vocabulary for the configuration properties (C01-C06)

Written from the documentation table in the module docstring of `config_utils.py` (lines 1-70), not
from the validators.
-/
namespace ChaosMagPy.Config.Spec
open ChaosMagPy.Config

/-- The documented parameters. -/
def documentedKeys : List String :=
  ["params.r_surf", "params.r_cmb", "params.dipole", "params.ellipsoid", "params.CHAOS_version",
   "params.cdf_to_mjd", "file.RC_index", "file.GSM_spectrum", "file.SM_spectrum",
   "file.Earth_conductivity", "file.shp_coastline", "plots.figure_width"]

/-- Parameters naming a file. -/
def fileKeys : List String :=
  ["file.RC_index", "file.GSM_spectrum", "file.SM_spectrum", "file.Earth_conductivity",
   "file.shp_coastline"]

/-- A digit, a dot and a digit next to each other somewhere in the text. -/
def ContainsVersion (py : Py) (s : String) : Prop :=
  ∃ pre a b post, py.isDigit a = true ∧ py.isDigit b = true ∧
    s.toList = pre ++ [a, '.', b] ++ post

/-- The documented type of each parameter. -/
structure HasDocumentedType (py : Py) (k : String) (v : Val) : Prop where
  float : k ∈ ["params.r_surf", "params.r_cmb", "plots.figure_width"] → ∃ f, v = .sc (.flt f)
  int : k = "params.cdf_to_mjd" → ∃ i, v = .sc (.int i)
  dipole : k = "params.dipole" → ∃ xs, v = .arr xs ∧ xs.length = 3
  ellipsoid : k = "params.ellipsoid" → ∃ xs, v = .arr xs ∧ xs.length = 2
  version : k = "params.CHAOS_version" → ∃ s, v = .sc (.str s) ∧ ContainsVersion py s
  file : k ∈ fileKeys →
    v = .sc .none ∨ (∃ s, v = .sc (.str s)) ∨ (∃ i, v = .sc (.int i)) ∨ (∃ b, v = .sc (.bool b))

/-- The file named by a `file.*` value is there (`None`: no file is named). -/
def FileThere (fs : FS) : Val → Prop
  | .sc .none => True
  | .sc (.str s) => fs.pathExists s = true
  | .sc (.int i) => fs.fdExists i = true
  | .sc (.bool b) => fs.fdExists (if b then 1 else 0) = true
  | _ => False

/-- The program deletes no file. -/
def NoDelete : Prog → Prop
  | .ctx _ _ p => NoDelete p
  | .seq p q => NoDelete p ∧ NoDelete q
  | .tryExcept p => NoDelete p
  | .deleteFile _ => False
  | _ => True

/-- A NumPy array literal whose elements already have a common dtype (`np.array` of its element list
is the array itself); true of every array that is not of dtype object. -/
def StableVal (py : Py) : Val → Prop
  | .arr xs => npUnify py xs = xs
  | _ => True

/-- All array literals the program assigns are stable. -/
def StableProg (py : Py) : Prog → Prop
  | .set _ v => StableVal py v
  | .load es => ∀ e ∈ es, StableVal py e.2
  | .ctx _ v p => StableVal py v ∧ StableProg py p
  | .seq p q => StableProg py p ∧ StableProg py q
  | .tryExcept p => StableProg py p
  | _ => True

/-- A concrete Python environment, used to show that hypotheses can be met: ASCII digits, no string
parses as a number, every integer has a float. -/
def demoPy : Py where
  strOf := fun _ => "<object>"
  parseFloat := fun _ => none
  parseInt := fun _ => none
  floatOfInt := fun i => some (.fin i)
  isDigit := Char.isDigit
  dot_not_digit := by decide
  ascii_digit := fun _ h => h

/-- A concrete context. -/
def demoCtx : Ctx := ⟨demoPy, "/lib"⟩

/-- A file system in which every path exists. -/
def demoFS : FS := ⟨fun _ => true, fun i => decide (0 ≤ i ∧ i < 3)⟩

end ChaosMagPy.Config.Spec
