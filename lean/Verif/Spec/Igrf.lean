import Verif.Model.Igrf
import Verif.Spec.Numeral
/-!
# Specification of an IGRF table

Independent of the reader: what the text of a table looks like and which field it describes.
-/
namespace ChaosMagPy.Spec
open ChaosMagPy.Shc (isSpace)

/-- The line consists of the given words, separated (and possibly surrounded) by white space. -/
def Words : List Char → List (List Char) → Prop
  | line, [] => ∀ c ∈ line, isSpace c = true
  | line, w :: ws => ∃ pre rest, line = pre ++ w ++ rest ∧ (∀ c ∈ pre, isSpace c = true) ∧ w ≠ [] ∧
      (∀ c ∈ w, isSpace c = false) ∧ (rest = [] ∨ ∃ c r, rest = c :: r ∧ isSpace c = true) ∧ Words rest ws

/-- A comment line: after white space there is a `#` or `c/s`. -/
def IsRemark (line : List Char) : Prop :=
  ∃ pre rest, (∀ c ∈ pre, isSpace c = true) ∧ (line = pre ++ '#' :: rest ∨ line = pre ++ 'c' :: '/' :: 's' :: rest)

/-- The line starts with `g/h n m`-like words (three of them, the first not a comment sign) followed by the numbers `xs`
and by the words `tail`. -/
def IsRow (line : List Char) (xs : List ℝ) (tail : List (List Char)) : Prop :=
  ∃ a b c ws, Words line (a :: b :: c :: (ws ++ tail)) ∧ a.head? ≠ some '#' ∧ ¬ (['c', '/', 's'] <+: a) ∧ List.Forall₂ Denotes ws xs

/-- Lines of an IGRF file after the header: comments and blank lines in between, and the rows of the table. -/
inductive Rows : List (List Char) → List (List ℝ) → Prop
  | nil : Rows [] []
  | remark (line ls rows) : IsRemark line → Rows ls rows → Rows (line :: ls) rows
  | blank (line ls rows) : Words line [] → Rows ls rows → Rows (line :: ls) rows
  | row (line ls xs rows) : IsRow line xs [] → Rows ls rows → Rows (line :: ls) (xs :: rows)

/-- Lines of an IGRF file: comments, a header with the epochs and one more column title (for the secular variation),
then the rows. -/
inductive IgrfLines : List (List Char) → List ℝ → List (List ℝ) → Prop
  | remark (line ls years rows) : IsRemark line → IgrfLines ls years rows → IgrfLines (line :: ls) years rows
  | header (line ls years rows) (sv : List Char) : IsRow line years [sv] → Rows ls rows → IgrfLines (line :: ls) years rows

/-- The text of an IGRF file with the given epochs; every row has the values at the epochs and the secular variation. -/
def IgrfText (content : List Char) (years : List ℝ) (rows : List (List ℝ)) : Prop :=
  ∃ ls, content = ls.flatMap (fun l => l ++ ['\n']) ∧ (∀ l ∈ ls, '\n' ∉ l) ∧ IgrfLines ls years rows ∧
    ∀ r ∈ rows, r.length = years.length + 1

/-- Years of the nodes: the epochs, and five years after the last. -/
noncomputable def nodeYear (years : List ℝ) (k : ℕ) : ℝ :=
  if k < years.length then years.getD k 0 else years.getD (years.length - 1) 0 + 5

/-- Values of one coefficient at the nodes: those of the table, and at the last the value of the last epoch advanced by
five years of the secular variation. -/
noncomputable def nodeValue (years : List ℝ) (row : List ℝ) (k : ℕ) : ℝ :=
  if k < years.length then row.getD k 0 else row.getD (years.length - 1) 0 + 5 * row.getD years.length 0

end ChaosMagPy.Spec
