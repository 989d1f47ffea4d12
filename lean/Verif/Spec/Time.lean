import Mathlib.Data.Int.Basic
import Mathlib.Logic.Function.Iterate
/-!
# Specification vocabulary for the time properties (C07-C11): the Gregorian calendar

Written from the calendar rules, independently of NumPy's day-count formulas.
-/
namespace ChaosMagPy.Time.Spec

/-- Gregorian leap years: divisible by 4, except centuries not divisible by 400. -/
def Leap (y : Int) : Prop := (4 ∣ y ∧ ¬ 100 ∣ y) ∨ 400 ∣ y

instance (y : Int) : Decidable (Leap y) := by unfold Leap; infer_instance

/-- A calendar date. -/
structure Date where
  year : Int
  month : Nat
  day : Nat
  deriving DecidableEq

/-- Thirty days hath September, April, June and November ... -/
def monthLength (y : Int) (m : Nat) : Nat :=
  if m = 2 then (if Leap y then 29 else 28)
  else if m = 4 ∨ m = 6 ∨ m = 9 ∨ m = 11 then 30
  else 31

/-- A date that exists. -/
def Date.Valid (d : Date) : Prop :=
  1 ≤ d.month ∧ d.month ≤ 12 ∧ 1 ≤ d.day ∧ d.day ≤ monthLength d.year d.month

/-- The following day. -/
def nextDay (d : Date) : Date :=
  if d.day < monthLength d.year d.month then ⟨d.year, d.month, d.day + 1⟩
  else if d.month < 12 then ⟨d.year, d.month + 1, 1⟩
  else ⟨d.year + 1, 1, 1⟩

/-- The origin of modified Julian dates in this package. -/
def epoch : Date := ⟨2000, 1, 1⟩

/-- `d` lies `n` days after the epoch (before it, if `n` is negative), counted by walking through the
calendar day by day. -/
def DaysFromEpoch (d : Date) (n : Int) : Prop :=
  (0 ≤ n ∧ nextDay^[n.toNat] epoch = d) ∨ (n ≤ 0 ∧ nextDay^[(-n).toNat] d = epoch)

/-- Nanoseconds in `h` hours, `mi` minutes, `s` seconds, `us` microseconds and `ns` nanoseconds. -/
def timeOfDay (h mi s us ns : Int) : Int :=
  ((h * 60 + mi) * 60 + s) * 1000000000 + us * 1000 + ns

/-- Nanoseconds in a day. -/
def dayNs : Int := 24 * 60 * 60 * 1000000000

end ChaosMagPy.Time.Spec
