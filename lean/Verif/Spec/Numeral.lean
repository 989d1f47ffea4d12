import Mathlib.Algebra.Field.Basic
import Mathlib.Data.Nat.Digits.Defs
/-!
# Specification: decimal numbers in text

The notation that C's `strtod`, `np.fromstring` and Python's `float` have in common (without inf, nan and underscores).
-/
namespace ChaosMagPy.Spec

/-- Decimal digits only. -/
def AllDigits (s : List Char) : Prop := ∀ c ∈ s, '0' ≤ c ∧ c ≤ '9'

/-- Value of a string of digits, the most significant first. -/
def digitsValue (s : List Char) : ℕ := Nat.ofDigits 10 (s.reverse.map fun c => c.toNat - '0'.toNat)

/-- An optional sign. -/
def IsSign (s : List Char) (σ : ℤ) : Prop := (s = [] ∧ σ = 1) ∨ (s = ['+'] ∧ σ = 1) ∨ (s = ['-'] ∧ σ = -1)

/-- An optional exponent, marked by one of the characters `marks`. -/
def IsExponent (marks s : List Char) (k : ℤ) : Prop :=
  (s = [] ∧ k = 0) ∨ ∃ m ∈ marks, ∃ t σ d, IsSign t σ ∧ AllDigits d ∧ d ≠ [] ∧ s = m :: (t ++ d) ∧ k = σ * digitsValue d

/-- The word `w` denotes the number `x`: sign, digits, point, digits, exponent, where sign, point and exponent may be missing and there is at
least one digit before the exponent. -/
def DenotesWith {K : Type} [Field K] (marks : List Char) (w : List Char) (x : K) : Prop :=
  ∃ (s : List Char) (σ : ℤ) (a point f e : List Char) (k : ℤ), IsSign s σ ∧ AllDigits a ∧ AllDigits f ∧ (a ≠ [] ∨ f ≠ []) ∧
    (point = ['.'] ∨ (point = [] ∧ f = [])) ∧ IsExponent marks e k ∧ w = s ++ (a ++ (point ++ (f ++ e))) ∧
    x = (σ : K) * ((digitsValue a : K) + (digitsValue f : K) / 10 ^ f.length) * 10 ^ k

/-- With the usual exponents. -/
def Denotes {K : Type} [Field K] (w : List Char) (x : K) : Prop := DenotesWith ['e', 'E'] w x

end ChaosMagPy.Spec
