import Verif.Model.Matfile
/-!
# Model of calls of `load_CHAOS_matfile` that share a list of satellite names, `chaosmagpy/chaos.py` lines 2510-2656

The argument `satellites` is a Python list; `satellites.append(...)` (chaos.py:2600) changes the list of the caller, while `satellites = satellites[:n]`
(chaos.py:2597) only binds the local name to a new list.
-/
namespace ChaosMagPy.Matfile

/-- Number of satellites in the file, if the call comes to chaos.py:2592-2594. -/
noncomputable def eulerReached (file : Dict) : Except Error (Option ℕ) := do
  let mat := loadMatfile file
  let _ ← loadTdep mat
  let _ ← loadStatic mat
  let _ ← loadExternal mat
  match mat.get "model_Euler" with
  | .error _ => return none
  | .ok v =>
    let euler ← v.dict
    let breaks ← euler.get "t_break_Euler"
    let n ← breaks.len
    return some n

/-- The list of the caller after the call, chaos.py:2596-2601: generic names are appended in place (also if the call fails later). -/
noncomputable def listAfter (satellites : List String) (file : Dict) : List String :=
  match eulerReached file with
  | .ok (some n) => if n > satellites.length then
      (List.range' (satellites.length + 1) (n - satellites.length)).foldl (fun l counter => l ++ [s!"satellite_{counter}"]) satellites
    else satellites
  | _ => satellites

/-- Calls of `load_CHAOS_matfile(filepath, name=, satellites=satellites)` one after the other with the same list: the results and the list. -/
noncomputable def loadAll (satellites : List String) : List (String × Dict) → List (Except Error Attr) × List String
  | [] => ([], satellites)
  | (name, file) :: calls =>
    let r := load name (some satellites) file
    let rest := loadAll (listAfter satellites file) calls
    (r :: rest.1, rest.2)

end ChaosMagPy.Matfile
