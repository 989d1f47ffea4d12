import Verif.Model.Matfile
/-!
# Model of the single writes of `CHAOS.save_matfile`, `chaosmagpy/chaos.py`

`CHAOS.save_matfile` (chaos.py:2241-2349) calls `hdf.write` once for every variable of the file, and four times for the Euler angles. What the
variables contain is computed part by part, so that an exception in a later part comes after the writes of the earlier ones. hdf5storage by what it promises: `write` opens an
existing file without emptying it (`truncate_existing=False`), creates it if it is not there, replaces what is stored under the path as a whole
(`matlab_compatible=True` deletes unused fields of a structure) and leaves everything else as it is; groups on the path are created. Simplifications: a single
`write` is not interrupted; if `model_Euler` in an existing file is not a structure then it is replaced by one.
-/
namespace ChaosMagPy.Matfile

/-- One call of `hdf.write`: a variable, or a field of a structure. -/
inductive Write where
  | var (key : String) (v : MVal)
  | field (group name : String) (v : MVal)

/-- The file after the call. -/
def Write.apply (d : Dict) : Write → Dict
  | .var k v => dictSet d k v
  | .field g n v =>
    match List.lookup g d with
    | some (.struct f) => dictSet d g (.struct (dictSet f n v))
    | _ => dictSet d g (.struct [(n, v)])

/-- A variable that is written if the part exists. -/
def planVar (key : String) (v : Except Error (Option MVal)) : Except Error (List Write) :=
  match v with
  | .error e => .error e
  | .ok none => .ok []
  | .ok (some v) => .ok [.var key v]

/-- The four writes of the Euler angles, chaos.py:2315-2328. -/
def planFields (group : String) (v : Except Error (Option MVal)) : Except Error (List Write) :=
  match v with
  | .error e => .error e
  | .ok (some (.struct fs)) => .ok (fs.map fun x => .field group x.1 x.2)
  | .ok _ => .ok []

/-- The parts of `CHAOS.save_matfile` in their order, chaos.py:2255-2346. -/
noncomputable def plan (keep : Bool) (noneArr : Option Arr) (m : Attr) : List (Except Error (List Write)) :=
  [planVar "pp" (onSome m.tdep (toPP keep)),
   planVar "model_ext" (onSome m.delta fun d => saveExternal keep d m.sm m.gsm),
   planFields "model_Euler" (onSome (truthy m.euler) fun e => saveEuler keep e m.metaData),
   planVar "pp_CAL" (onSome (truthy m.cal) (saveCal keep)),
   planVar "g" (onSome m.static fun s => .ok (wnum keep s.coeffs.column)),
   planVar "params" (onSome m.metaData fun d => .ok (.struct [("Euler_prerotation", prerotationValue keep noneArr d)]))]

/-- The writes before the first exception, and the exception. -/
def performed : List (Except Error (List Write)) → List Write × Option Error
  | [] => ([], none)
  | .error e :: _ => ([], some e)
  | .ok ws :: ps => (ws ++ (performed ps).1, (performed ps).2)

/-- The file after the writes; without any write it is as before (`none`: there is no file). -/
def fileAfter (old : Option Dict) (ws : List Write) : Option Dict := if ws = [] then old else some (ws.foldl Write.apply (old.getD []))

/-- The file if the process ends after `n` calls of `hdf.write` in `model.save_matfile(filepath)`. -/
noncomputable def crashed (keep : Bool) (noneArr : Option Arr) (m : Attr) (old : Option Dict) (n : ℕ) : Option Dict :=
  fileAfter old ((performed (plan keep noneArr m)).1.take n)

/-- The file after `model.save_matfile(filepath)` and the exception that it raises. -/
noncomputable def saved (keep : Bool) (noneArr : Option Arr) (m : Attr) (old : Option Dict) : Option Dict × Option Error :=
  (fileAfter old (performed (plan keep noneArr m)).1, (performed (plan keep noneArr m)).2)

end ChaosMagPy.Matfile
