import Verif.Model.Config
import Verif.Model.Shc
/-!
# Model of the text of configuration files, `chaosmagpy/config_utils.py` lines 218-259

`json.dump(self, f, indent=4, sort_keys=True)` and `json.load(f)` at the level of characters (CPython's `json` module): strings in ASCII with escape
sequences, numbers, constants, nested arrays and objects. Simplifications: strings are sequences of Unicode scalar values (an escape sequence of a
single surrogate is an error here); the conversion of floats from and to text is a parameter (`FloatText`); the recursion limit of CPython is not modelled.
-/
namespace ChaosMagPy.ConfigText
open ChaosMagPy.Config
open ChaosMagPy.Shc (natVal isDigit intStr)

/-- JSON values as `json.load` returns them. -/
inductive Json where
  | sc (s : Sc)
  | arr (xs : List Json)
  | obj (xs : List (String × Json))

/-! ### Strings -/

/-- The lower case hexadecimal digit. -/
def hexDigit (n : ℕ) : Char := if n < 10 then Char.ofNat (48 + n) else Char.ofNat (87 + n)

/-- `'\\u{0:04x}'.format(n)`. -/
def hexEscape (n : ℕ) : List Char :=
  ['\\', 'u', hexDigit (n / 4096 % 16), hexDigit (n / 256 % 16), hexDigit (n / 16 % 16), hexDigit (n % 16)]

/-- One character in the encoding with `ensure_ascii` (`json.encoder.py_encode_basestring_ascii`). -/
def escapeChar (c : Char) : List Char :=
  if c = '\\' then ['\\', '\\']
  else if c = '"' then ['\\', '"']
  else if c = '\n' then ['\\', 'n']
  else if c = '\r' then ['\\', 'r']
  else if c = '\t' then ['\\', 't']
  else if c = '\x0c' then ['\\', 'f']
  else if c = '\x08' then ['\\', 'b']
  else if 32 ≤ c.toNat ∧ c.toNat ≤ 126 then [c]
  else if c.toNat < 65536 then hexEscape c.toNat
  else hexEscape (55296 + (c.toNat - 65536) / 1024 % 1024) ++ hexEscape (56320 + (c.toNat - 65536) % 1024)

/-- A string with quotation marks. -/
def quote (s : String) : List Char := '"' :: (s.toList.flatMap escapeChar ++ ['"'])

/-- Value of a hexadecimal digit. -/
def hexVal (c : Char) : Option ℕ :=
  if 48 ≤ c.toNat ∧ c.toNat ≤ 57 then some (c.toNat - 48)
  else if 97 ≤ c.toNat ∧ c.toNat ≤ 102 then some (c.toNat - 87)
  else if 65 ≤ c.toNat ∧ c.toNat ≤ 70 then some (c.toNat - 55)
  else none

/-- Four hexadecimal digits (`json.decoder._decode_uXXXX`). -/
def hex4 : List Char → Option (ℕ × List Char)
  | a :: b :: c :: d :: r => do
    let a ← hexVal a
    let b ← hexVal b
    let c ← hexVal c
    let d ← hexVal d
    return (((a * 16 + b) * 16 + c) * 16 + d, r)
  | _ => none

/-- An escape sequence after `\u`. -/
def unicodeEscape (s : List Char) : Option (Char × List Char) := do
  let (v, r) ← hex4 s
  if 55296 ≤ v ∧ v ≤ 56319 then
    if r.take 2 = ['\\', 'u'] then
      let (w, r) ← hex4 (r.drop 2)
      if 56320 ≤ w ∧ w ≤ 57343 then return (Char.ofNat (65536 + (v - 55296) * 1024 + (w - 56320)), r) else none
    else none
  else if 56320 ≤ v ∧ v ≤ 57343 then none
  else return (Char.ofNat v, r)

/-- The escape sequences of one letter. -/
def simpleEscape (c : Char) : Option Char :=
  if c = '"' then some '"'
  else if c = '\\' then some '\\'
  else if c = '/' then some '/'
  else if c = 'b' then some '\x08'
  else if c = 'f' then some '\x0c'
  else if c = 'n' then some '\n'
  else if c = 'r' then some '\r'
  else if c = 't' then some '\t'
  else none

/-- The next character of a string (`none` at the closing quotation mark) and what follows. -/
def nextChar : List Char → Option (Option Char × List Char)
  | [] => none
  | c :: r =>
    if c = '"' then some (none, r)
    else if c = '\\' then
      match r with
      | [] => none
      | e :: r' =>
        if e = 'u' then (unicodeEscape r').map fun p => (some p.1, p.2)
        else (simpleEscape e).map fun x => (some x, r')
    else if c.toNat < 32 then none
    else some (some c, r)

/-- The characters up to the closing quotation mark (`json.decoder.py_scanstring`). -/
def parseStrGo : ℕ → List Char → Option (List Char × List Char)
  | 0, _ => none
  | n + 1, s =>
    match nextChar s with
    | none => none
    | some (none, r) => some ([], r)
    | some (some c, r) => (parseStrGo n r).map fun p => (c :: p.1, p.2)

/-- A string after its opening quotation mark. -/
def parseStr (s : List Char) : Option (String × List Char) := (parseStrGo (s.length + 1) s).map fun p => (String.ofList p.1, p.2)

/-! ### Numbers and constants -/

/-- Conversion of floats: `float.__repr__` and `float(text)`. The laws hold for the numbers `isFloat` that are floats. -/
structure FloatText where
  repr : ℚ → List Char
  ofText : List Char → Flt
  isFloat : ℚ → Prop
  /-- the text of a float comes back as this float -/
  back : ∀ q, isFloat q → ofText (repr q) = .fin q
  /-- the text of a float: sign, digits without leading zero, then a point and digits, an exponent, or both -/
  shape : ∀ q, isFloat q → ∃ sg a f e : List Char, repr q = sg ++ (a ++ (f ++ e)) ∧ (sg = [] ∨ sg = ['-']) ∧
    (∀ c ∈ a, isDigit c = true) ∧ a ≠ [] ∧ (a = ['0'] ∨ a.head? ≠ some '0') ∧
    (f = [] ∨ ∃ d, f = '.' :: d ∧ d ≠ [] ∧ ∀ c ∈ d, isDigit c = true) ∧
    (e = [] ∨ ∃ d, (e = 'e' :: '+' :: d ∨ e = 'e' :: '-' :: d) ∧ d ≠ [] ∧ ∀ c ∈ d, isDigit c = true) ∧ (f ≠ [] ∨ e ≠ [])

/-- Text of a scalar (`json.encoder`). -/
def printSc (ft : FloatText) : Sc → List Char
  | .none => ['n', 'u', 'l', 'l']
  | .bool true => ['t', 'r', 'u', 'e']
  | .bool false => ['f', 'a', 'l', 's', 'e']
  | .int i => intStr i
  | .flt (.fin q) => ft.repr q
  | .flt .nan => ['N', 'a', 'N']
  | .flt (.inf false) => ['I', 'n', 'f', 'i', 'n', 'i', 't', 'y']
  | .flt (.inf true) => ['-', 'I', 'n', 'f', 'i', 'n', 'i', 't', 'y']
  | .str s => quote s

/-- Digits of the integer part, `0|[1-9]\d*`: a zero stands alone. -/
def intPart (s : List Char) : List Char × List Char :=
  if s.head? = some '0' then (['0'], s.tail) else (s.takeWhile isDigit, s.dropWhile isDigit)

/-- The fraction, `(\.\d+)?`. -/
def fracPart (s : List Char) : List Char × List Char :=
  if s.head? = some '.' ∧ s.tail.takeWhile isDigit ≠ [] then ('.' :: s.tail.takeWhile isDigit, s.tail.dropWhile isDigit) else ([], s)

/-- The sign of an exponent, `[-+]?`. -/
def expSign (s : List Char) : List Char × List Char :=
  if s.head? = some '+' then (['+'], s.tail) else if s.head? = some '-' then (['-'], s.tail) else ([], s)

/-- The exponent, `([eE][-+]?\d+)?`. -/
def expPart (s : List Char) : List Char × List Char :=
  match s with
  | [] => ([], [])
  | c :: r =>
    let t := expSign r
    if (c = 'e' ∨ c = 'E') ∧ t.2.takeWhile isDigit ≠ [] then (c :: (t.1 ++ t.2.takeWhile isDigit), t.2.dropWhile isDigit) else ([], s)

/-- A number (`json.scanner.NUMBER_RE`): an integer if fraction and exponent are missing. -/
def parseNumber (ft : FloatText) (s : List Char) : Option (Sc × List Char) :=
  let neg : Bool := s.head? = some '-'
  let s := if neg then s.tail else s
  let (a, r) := intPart s
  if a = [] then none
  else
    let (f, r) := fracPart r
    let (e, r) := expPart r
    if f = [] ∧ e = [] then some (.int (if neg then -(natVal a : ℤ) else natVal a), r)
    else some (.flt (ft.ofText ((if neg then ['-'] else []) ++ (a ++ (f ++ e)))), r)

/-- The rest of the text after the given word. -/
def strip (w s : List Char) : Option (List Char) := if s.take w.length = w then some (s.drop w.length) else none

/-- Constants and numbers (`json.scanner.py_make_scanner`). -/
def parseAtom (ft : FloatText) (s : List Char) : Option (Sc × List Char) :=
  if s.head? = some 'n' then (strip ['n', 'u', 'l', 'l'] s).map fun r => (.none, r)
  else if s.head? = some 't' then (strip ['t', 'r', 'u', 'e'] s).map fun r => (.bool true, r)
  else if s.head? = some 'f' then (strip ['f', 'a', 'l', 's', 'e'] s).map fun r => (.bool false, r)
  else if s.head? = some 'N' then (strip ['N', 'a', 'N'] s).map fun r => (.flt .nan, r)
  else if s.head? = some 'I' then (strip ['I', 'n', 'f', 'i', 'n', 'i', 't', 'y'] s).map fun r => (.flt (.inf false), r)
  else if s.head? = some '-' ∧ s.tail.head? = some 'I' then
    (strip ['-', 'I', 'n', 'f', 'i', 'n', 'i', 't', 'y'] s).map fun r => (.flt (.inf true), r)
  else parseNumber ft s

/-! ### Values -/

/-- White space of JSON. -/
def isWs (c : Char) : Bool := c == ' ' || c == '\t' || c == '\n' || c == '\r'

/-- Skip white space. -/
def skipWs (s : List Char) : List Char := s.dropWhile isWs

mutual
/-- A value at the beginning of the text (`scan_once`). The first argument bounds the number of nested calls. -/
def parseValue (ft : FloatText) : ℕ → List Char → Option (Json × List Char)
  | 0, _ => none
  | _ + 1, [] => none
  | n + 1, c :: r =>
    if c = '"' then (parseStr r).map fun p => (.sc (.str p.1), p.2)
    else if c = '[' then
      if (skipWs r).head? = some ']' then some (.arr [], (skipWs r).tail)
      else (parseElems ft n (skipWs r)).map fun p => (.arr p.1, p.2)
    else if c = '{' then
      if (skipWs r).head? = some '}' then some (.obj [], (skipWs r).tail)
      else (parseMembers ft n (skipWs r)).map fun p => (.obj p.1, p.2)
    else (parseAtom ft (c :: r)).map fun p => (.sc p.1, p.2)
/-- The elements of an array up to the closing bracket (`JSONArray`). -/
def parseElems (ft : FloatText) : ℕ → List Char → Option (List Json × List Char)
  | 0, _ => none
  | n + 1, s =>
    match parseValue ft n s with
    | none => none
    | some (v, r) =>
      if (skipWs r).head? = some ']' then some ([v], (skipWs r).tail)
      else if (skipWs r).head? = some ',' then
        (parseElems ft n (skipWs (skipWs r).tail)).map fun p => (v :: p.1, p.2)
      else none
/-- The members of an object up to the closing brace (`JSONObject`). -/
def parseMembers (ft : FloatText) : ℕ → List Char → Option (List (String × Json) × List Char)
  | 0, _ => none
  | n + 1, s =>
    if s.head? = some '"' then
      match parseStr s.tail with
      | none => none
      | some (k, r) =>
        if (skipWs r).head? = some ':' then
          match parseValue ft n (skipWs (skipWs r).tail) with
          | none => none
          | some (v, r) =>
            if (skipWs r).head? = some '}' then some ([(k, v)], (skipWs r).tail)
            else if (skipWs r).head? = some ',' then
              (parseMembers ft n (skipWs (skipWs r).tail)).map fun p => ((k, v) :: p.1, p.2)
            else none
        else none
    else none
end

/-- `json.load(f)`, config_utils.py:230, for the content of the file; `none` is JSONDecodeError. -/
def parseText (ft : FloatText) (s : List Char) : Option Json :=
  match parseValue ft (s.length + 1) (skipWs s) with
  | none => none
  | some (v, r) => if skipWs r = [] then some v else none

/-! ### Loading and saving -/

/-- A JSON value as configuration value; containers inside of lists and objects are not distinguished further. -/
def toVal : Json → Val
  | .sc s => .sc s
  | .arr xs => .list (xs.map fun x => match x with
    | .sc s => some s
    | _ => none)
  | .obj _ => .other 0

/-- The dictionary of an object: the last value of a key counts. -/
def dictOf (kvs : List (String × Json)) : Dict := kvs.foldl (fun d kv => d.set kv.1 (toVal kv.2)) []

/-- `BasicConfig.load(filepath)`, config_utils.py:218-238, for the content of the file. JSONDecodeError is a ValueError; a file with something else than
an object fails at `len` or `items` (TypeError or AttributeError, here TypeError). -/
def loadText (ft : FloatText) (c : Ctx) (s : State) (content : List Char) : State × Option Err :=
  match parseText ft content with
  | none => (s, some .valueError)
  | some (.obj kvs) => load c s (dictOf kvs)
  | some _ => (s, some .typeError)

/-- Items separated by commas and new lines of the given indentation. -/
def joinItems (indent : ℕ) : List (List Char) → List Char
  | [] => []
  | [x] => x
  | x :: xs => x ++ (',' :: '\n' :: (List.replicate indent ' ' ++ joinItems indent xs))

/-- Text of a configuration value at the first level of indentation: arrays are printed as lists, other objects as `null` (`default`,
config_utils.py:252-254). Lists with containers are outside of the model (their containers are printed as `null`). -/
def printVal (ft : FloatText) (v : Val) : List Char :=
  let block (xs : List (List Char)) : List Char :=
    if xs = [] then ['[', ']']
    else '[' :: '\n' :: (List.replicate 8 ' ' ++ (joinItems 8 xs ++ ('\n' :: (List.replicate 4 ' ' ++ [']']))))
  match v with
  | .sc s => printSc ft s
  | .list xs => block (xs.map fun x => match x with
    | some s => printSc ft s
    | none => ['n', 'u', 'l', 'l'])
  | .arr xs => block (xs.map (printSc ft))
  | .other _ => ['n', 'u', 'l', 'l']

/-- `BasicConfig.save(filepath)`, config_utils.py:240-259: the text of the file. -/
def saveText (ft : FloatText) (d : Dict) : List Char :=
  if d = [] then ['{', '}']
  else '{' :: '\n' :: (List.replicate 4 ' ' ++ (joinItems 4 ((d.foldr insertSorted []).map fun kv =>
    quote kv.1 ++ (':' :: ' ' :: printVal ft kv.2)) ++ ['\n', '}']))

end ChaosMagPy.ConfigText
