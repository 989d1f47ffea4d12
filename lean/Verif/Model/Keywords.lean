import Mathlib.Data.List.Basic
/-!
# Model of `defaultkeys`, `chaosmagpy/plot_utils.py` lines 287-308

A dictionary is the list of its entries in insertion order; a value is `none` if it is the object None,
otherwise `some` value (the value itself is opaque). The dictionary `keywords` is changed in place and
returned; the model returns its final content.
-/
namespace ChaosMagPy.Keywords

/-- A Python dictionary with string keys whose values may be None. -/
abbrev Dict (V : Type) := List (String × Option V)

/-- `d[key] = value`: replaces the value in place or appends a new entry. -/
def Dict.set {V : Type} : Dict V → String → Option V → Dict V
  | [], k, v => [(k, v)]
  | (k', v') :: d, k, v => if k' = k then (k, v) :: d else (k', v') :: Dict.set d k v

/-- `d.setdefault(key, value)`: the dictionary afterwards and the value returned. -/
def Dict.setdefault {V : Type} (d : Dict V) (k : String) (v : Option V) : Dict V × Option V :=
  match List.lookup k d with
  | some w => (d, w)
  | none => (d ++ [(k, v)], v)

/-- Loop body, plot_utils.py:304-306. -/
def step {V : Type} (d : Dict V) (kv : String × Option V) : Dict V :=
  let r := d.setdefault kv.1 kv.2
  if r.2.isNone then r.1.set kv.1 kv.2 else r.1

/-- `defaultkeys(defaults, keywords)`, plot_utils.py:287-308. -/
def defaultkeys {V : Type} (defaults keywords : Dict V) : Dict V := defaults.foldl step keywords

end ChaosMagPy.Keywords
