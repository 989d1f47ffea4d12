import Verif.Model.Shc
import Verif.Spec.Numeral
import Mathlib.Algebra.Order.Round
import Mathlib.Tactic.Linarith
import Mathlib.Tactic.Ring
import Mathlib.Tactic.IntervalCases
import Mathlib.Tactic.FieldSimp
/-!
# Printing and parsing of numbers and lines
-/
namespace ChaosMagPy.Shc
open ChaosMagPy.Time

/-! ### digits -/

theorem digitChar_val (d : ℕ) (h : d < 10) : (digitChar d).toNat = 48 + d := by
  interval_cases d <;> rfl

theorem digitChar_digit (d : ℕ) (h : d < 10) : isDigit (digitChar d) = true := by
  interval_cases d <;> rfl

theorem natVal_append (a b : List Char) : natVal (a ++ b) = natVal a * 10 ^ b.length + natVal b := by
  unfold natVal
  rw [List.foldl_append]
  generalize a.foldl (fun a c => 10 * a + (c.toNat - 48)) 0 = v
  induction b using List.reverseRecOn with
  | nil => simp
  | append_singleton b c ih =>
    simp only [List.foldl_append, List.foldl_cons, List.foldl_nil, ih, List.length_append, List.length_cons,
      List.length_nil]
    ring

theorem natStr_spec (n : ℕ) : natVal (natStr n) = n ∧ (∀ c ∈ natStr n, isDigit c = true) ∧ natStr n ≠ [] := by
  unfold natStr
  split_ifs with h
  · subst h
    refine ⟨rfl, by simp; rfl, by simp⟩
  · refine ⟨?_, ?_, ?_⟩
    · have key : ∀ l : List ℕ, (∀ d ∈ l, d < 10) → natVal (l.map digitChar).reverse = Nat.ofDigits 10 l := by
        intro l
        induction l with
        | nil => intro _; rfl
        | cons d l ih =>
          intro hl
          rw [List.map_cons, List.reverse_cons, natVal_append, ih (fun x hx => hl x (List.mem_cons_of_mem _ hx)),
            Nat.ofDigits_cons]
          simp [natVal, digitChar_val d (hl d List.mem_cons_self)]
          ring
      rw [key _ (fun d hd => Nat.digits_lt_base (by norm_num) hd), Nat.ofDigits_digits]
    · intro c hc
      rw [List.mem_reverse, List.mem_map] at hc
      obtain ⟨d, hd, rfl⟩ := hc
      exact digitChar_digit d (Nat.digits_lt_base (by norm_num) hd)
    · simp [Nat.digits_eq_nil_iff_eq_zero, h]

theorem padDigits_spec (k n : ℕ) : natVal (padDigits k n) = n % 10 ^ k ∧ (padDigits k n).length = k ∧
    ∀ c ∈ padDigits k n, isDigit c = true := by
  induction k generalizing n with
  | zero => simp [padDigits, natVal, Nat.mod_one]
  | succ k ih =>
    obtain ⟨h1, h2, h3⟩ := ih (n / 10)
    refine ⟨?_, by simp [padDigits, h2], ?_⟩
    · simp only [padDigits]
      rw [natVal_append, h1]
      have hd : natVal [digitChar (n % 10)] = n % 10 := by
        simp [natVal, digitChar_val (n % 10) (Nat.mod_lt _ (by norm_num))]
      rw [hd, List.length_singleton, pow_one, pow_succ, Nat.mul_comm (10 ^ k) 10, Nat.mod_mul]
      ring
    · intro c hc
      simp only [padDigits, List.mem_append, List.mem_singleton] at hc
      rcases hc with hc | rfl
      · exact h3 c hc
      · exact digitChar_digit _ (Nat.mod_lt _ (by norm_num))

/-! ### numbers -/

section
variable {K : Type} [Field K] [LinearOrder K] [IsStrictOrderedRing K] [FloorRing K]

theorem takeWhile_digits (a b : List Char) (ha : ∀ c ∈ a, isDigit c = true)
    (hb : ∀ c ∈ b.head?, isDigit c = false) :
    (a ++ b).takeWhile isDigit = a ∧ (a ++ b).dropWhile isDigit = b := by
  induction a with
  | nil =>
    cases b with
    | nil => simp
    | cons c b =>
      have := hb c (by simp)
      simp [this]
  | cons c a ih =>
    have h := ha c List.mem_cons_self
    have := ih (fun x hx => ha x (List.mem_cons_of_mem _ hx))
    simp [h, this]

theorem digit_iff (c : Char) : isDigit c = true ↔ '0' ≤ c ∧ c ≤ '9' := by
  unfold isDigit
  rw [Bool.and_eq_true, decide_eq_true_eq, decide_eq_true_eq]
  exact Iff.rfl

theorem allDigits_iff (s : List Char) : Spec.AllDigits s ↔ ∀ c ∈ s, isDigit c = true :=
  forall_congr' fun c => forall_congr' fun _ => (digit_iff c).symm

theorem natVal_eq (s : List Char) : natVal s = Spec.digitsValue s := by
  induction s using List.reverseRecOn with
  | nil => rfl
  | append_singleton s c ih =>
    rw [natVal_append, ih]
    unfold Spec.digitsValue
    rw [List.reverse_append, List.map_append]
    simp only [List.reverse_cons, List.reverse_nil, List.nil_append, List.map_cons, List.map_nil, List.cons_append, Nat.ofDigits_cons]
    simp [natVal]
    ring

theorem not_digit_of (c d : Char) (h : c = d) (hd : isDigit d = false) : isDigit c = false := by rw [h, hd]

/-- What is left after a sign, or no sign. -/
theorem scanSign_spec (s : List Char) : ∃ t σ, Spec.IsSign t σ ∧ s = t ++ (scanSign s).2 ∧ σ = (if (scanSign s).1 then -1 else 1) := by
  unfold scanSign
  split
  · exact ⟨['-'], -1, .inr (.inr ⟨rfl, rfl⟩), rfl, rfl⟩
  · exact ⟨['+'], 1, .inr (.inl ⟨rfl, rfl⟩), rfl, rfl⟩
  · exact ⟨[], 1, .inl ⟨rfl, rfl⟩, rfl, rfl⟩

theorem scanSign_of {t : List Char} {σ : ℤ} (h : Spec.IsSign t σ) (u : List Char) (hu : ∀ c ∈ u.head?, isDigit c = true ∨ c = '.') :
    scanSign (t ++ u) = (decide (σ = -1), u) := by
  rcases h with ⟨rfl, rfl⟩ | ⟨rfl, rfl⟩ | ⟨rfl, rfl⟩
  · cases u with
    | nil => rfl
    | cons c u =>
      have hc := hu c rfl
      have h1 : c ≠ '-' := by
        rintro rfl
        rcases hc with hc | hc <;> revert hc <;> decide
      have h2 : c ≠ '+' := by
        rintro rfl
        rcases hc with hc | hc <;> revert hc <;> decide
      rw [List.nil_append]
      unfold scanSign
      split
      · rename_i h; cases h; exact absurd rfl h1
      · rename_i h; cases h; exact absurd rfl h2
      · rfl
  · rfl
  · rfl

theorem scanExponent_of {e : List Char} {k : ℤ} (h : Spec.IsExponent ['e', 'E'] e k) : scanExponent e = (k, []) := by
  rcases h with ⟨rfl, rfl⟩ | ⟨m, hm, t, σ, d, ht, hd, hne, rfl, rfl⟩
  · rfl
  · have hm' : m = 'e' ∨ m = 'E' := by simpa using hm
    have hd' := (allDigits_iff d).1 hd
    have hsc := scanSign_of ht d (fun c hc => .inl (hd' c (List.mem_of_mem_head? hc)))
    have htw := takeWhile_digits d [] hd' (by simp)
    rw [List.append_nil] at htw
    unfold scanExponent
    simp only
    rw [if_pos hm', hsc]
    simp only
    rw [htw.1, htw.2, if_neg hne, natVal_eq]
    rcases ht with ⟨-, rfl⟩ | ⟨-, rfl⟩ | ⟨-, rfl⟩ <;> simp

theorem exponent_head {e : List Char} {k : ℤ} (h : Spec.IsExponent ['e', 'E'] e k) : ∀ c ∈ e.head?, isDigit c = false ∧ c ≠ '.' := by
  rcases h with ⟨rfl, rfl⟩ | ⟨m, hm, t, σ, d, ht, hd, hne, rfl, rfl⟩
  · simp
  · intro c hc
    rw [List.head?_cons, Option.mem_some] at hc
    subst hc
    have hm' : m = 'e' ∨ m = 'E' := by simpa using hm
    rcases hm' with rfl | rfl <;> decide

theorem parseNum_of_scan {s : List Char} {x : K} : parseNum (K := K) s = some x ↔ scanNum (K := K) s = some (x, []) := by
  unfold parseNum
  constructor
  · intro h
    split at h
    · rename_i y heq
      injection h with h
      rw [heq, h]
    · cases h
  · intro h
    rw [h]

/-- Every number in decimal notation is read with its value. -/
theorem parseNum_of {s : List Char} {x : K} (h : Spec.Denotes s x) : parseNum (K := K) s = some x := by
  obtain ⟨sg, σ, a, p, f, e, k, hs, ha, hf, hne, hp, he, rfl, rfl⟩ := h
  have ha' := (allDigits_iff a).1 ha
  have hf' := (allDigits_iff f).1 hf
  have hfe := takeWhile_digits f e hf' (fun c hc => (exponent_head he c hc).1)
  have hhead : ∀ c ∈ (a ++ (p ++ (f ++ e))).head?, isDigit c = true ∨ c = '.' := by
    intro c hc
    cases a with
    | cons b a =>
      rw [List.cons_append, List.head?_cons, Option.mem_some] at hc
      exact .inl (hc ▸ ha' b List.mem_cons_self)
    | nil =>
      rcases hp with rfl | ⟨rfl, rfl⟩
      · rw [List.nil_append, List.cons_append, List.head?_cons, Option.mem_some] at hc
        exact .inr hc.symm
      · simp at hne
  have hunit : scanUnsigned (K := K) (a ++ (p ++ (f ++ e))) =
      some (((Spec.digitsValue a : K) + (Spec.digitsValue f : K) / 10 ^ f.length) * 10 ^ k, []) := by
    rcases hp with rfl | ⟨rfl, rfl⟩
    · have h1 := takeWhile_digits a (['.'] ++ (f ++ e)) ha' (by
        intro c hc
        rw [List.cons_append, List.head?_cons, Option.mem_some] at hc
        exact not_digit_of c '.' hc.symm rfl)
      unfold scanUnsigned
      simp only
      rw [h1.1, h1.2]
      simp only [List.cons_append, List.nil_append, List.head?_cons, if_true, List.tail_cons]
      rw [hfe.1, hfe.2, if_neg (by rintro ⟨h, h'⟩; rcases hne with h'' | h'' <;> contradiction), scanExponent_of he, natVal_eq, natVal_eq]
    · have h1 := takeWhile_digits a ([] ++ ([] ++ e)) ha' (by
        rw [List.nil_append, List.nil_append]
        exact fun c hc => (exponent_head he c hc).1)
      have hdot : ¬ (e.head? = some '.') := fun hc => (exponent_head he '.' hc).2 rfl
      unfold scanUnsigned
      simp only
      rw [h1.1, h1.2]
      simp only [List.nil_append]
      rw [if_neg hdot, if_neg hdot, if_neg (by rintro ⟨h, h'⟩; rcases hne with h'' | h'' <;> contradiction), scanExponent_of he, natVal_eq]
      simp [natVal, Spec.digitsValue]
  rw [parseNum_of_scan]
  unfold scanNum
  rw [scanSign_of hs _ hhead]
  simp only
  rw [hunit]
  simp only [Option.map_some]
  congr 2
  rcases hs with ⟨-, rfl⟩ | ⟨-, rfl⟩ | ⟨-, rfl⟩
  · simp
  · simp
  · simp only [decide_true, if_true, Int.cast_neg, Int.cast_one]
    ring

theorem takeWhile_digit (l : List Char) : ∀ c ∈ l.takeWhile isDigit, isDigit c = true := by
  induction l with
  | nil => intro c hc; cases hc
  | cons b l ih =>
    intro c hc
    rw [List.takeWhile_cons] at hc
    split_ifs at hc with h
    · rcases List.mem_cons.1 hc with rfl | hc
      · exact h
      · exact ih c hc
    · cases hc

theorem scanExponent_sound (s : List Char) {k : ℤ} (h : scanExponent s = (k, [])) : Spec.IsExponent ['e', 'E'] s k := by
  unfold scanExponent at h
  cases s with
  | nil =>
    simp only [Prod.mk.injEq] at h
    exact .inl ⟨rfl, h.1.symm⟩
  | cons c t =>
    simp only at h
    by_cases h1 : c = 'e' ∨ c = 'E'
    · rw [if_pos h1] at h
      by_cases h2 : (scanSign t).2.takeWhile isDigit = []
      · rw [if_pos h2, Prod.mk.injEq] at h
        exact nomatch h.2
      · rw [if_neg h2, Prod.mk.injEq] at h
        obtain ⟨u, σ, hu, ht, hσ⟩ := scanSign_spec t
        have hsplit := List.takeWhile_append_dropWhile (p := isDigit) (l := (scanSign t).2)
        rw [h.2, List.append_nil] at hsplit
        refine .inr ⟨c, by simpa using h1, u, σ, _, hu, (allDigits_iff _).2 (takeWhile_digit _), h2, ?_, ?_⟩
        · rw [hsplit, ← ht]
        · rw [← h.1, hσ, natVal_eq]
          split_ifs <;> simp
    · rw [if_neg h1, Prod.mk.injEq] at h
      exact nomatch h.2

/-- Only numbers in decimal notation are read. -/
theorem parseNum_sound {s : List Char} {x : K} (h : parseNum (K := K) s = some x) : Spec.Denotes s x := by
  rw [parseNum_of_scan] at h
  unfold scanNum at h
  obtain ⟨u, σ, hu, ht, hσ⟩ := scanSign_spec s
  simp only [Option.map_eq_some_iff] at h
  obtain ⟨⟨y, r⟩, h1, h2⟩ := h
  simp only [Prod.mk.injEq] at h2
  obtain ⟨h2, rfl⟩ := h2
  generalize (scanSign s).2 = w at *
  generalize (scanSign s).1 = neg at *
  unfold scanUnsigned at h1
  simp only at h1
  have hsplit := List.takeWhile_append_dropWhile (p := isDigit) (l := w)
  have hdig : ∀ c ∈ w.takeWhile isDigit, isDigit c = true := takeWhile_digit _
  generalize w.takeWhile isDigit = a at *
  generalize w.dropWhile isDigit = q at *
  split_ifs at h1 with h3 h4 h5
  · have hsplit2 := List.takeWhile_append_dropWhile (p := isDigit) (l := q.tail)
    have hdig2 : ∀ c ∈ q.tail.takeWhile isDigit, isDigit c = true := takeWhile_digit _
    have hq : q = '.' :: q.tail := by
      cases q with
      | nil => cases h3
      | cons c q => rw [List.head?_cons, Option.some.injEq] at h3; rw [h3]; rfl
    generalize q.tail.takeWhile isDigit = f at *
    generalize q.tail.dropWhile isDigit = e at *
    simp only [Option.some.injEq, Prod.mk.injEq] at h1
    refine ⟨u, σ, a, ['.'], f, e, (scanExponent e).1, hu, (allDigits_iff a).2 hdig, (allDigits_iff f).2 hdig2, ?_, .inl rfl,
      scanExponent_sound e (Prod.ext rfl h1.2), ?_, ?_⟩
    · by_contra hc
      push Not at hc
      exact h4 hc
    · rw [ht, ← hsplit, hq, ← hsplit2]
      rfl
    · rw [← h2, ← h1.1, hσ, natVal_eq, natVal_eq]
      split_ifs
      · rw [Int.cast_neg, Int.cast_one]
        ring
      · rw [Int.cast_one, one_mul]
  · simp only [Option.some.injEq, Prod.mk.injEq] at h1
    refine ⟨u, σ, a, [], [], q, (scanExponent q).1, hu, (allDigits_iff a).2 hdig, (fun c hc => nomatch hc), ?_, .inr ⟨rfl, rfl⟩,
      scanExponent_sound q (Prod.ext rfl h1.2), ?_, ?_⟩
    · by_contra hc
      push Not at hc
      exact h5 hc
    · rw [ht, ← hsplit]
      rfl
    · rw [← h2, ← h1.1, hσ, natVal_eq]
      split_ifs <;> simp [mul_assoc, natVal, Spec.digitsValue]

/-- The reader of numbers accepts exactly the decimal notation, with its value. -/
theorem parseNum_iff {s : List Char} {x : K} : parseNum (K := K) s = some x ↔ Spec.Denotes s x := ⟨parseNum_sound, parseNum_of⟩

theorem denotes_nat (n : ℕ) (neg : Bool) : Spec.Denotes ((if neg then ['-'] else []) ++ natStr n) ((if neg then -1 else 1) * (n : K)) := by
  obtain ⟨h1, h2, h3⟩ := natStr_spec n
  refine ⟨_, if neg then -1 else 1, natStr n, [], [], [], 0, ?_, (allDigits_iff _).2 h2, (fun c hc => nomatch hc), .inl h3, .inr ⟨rfl, rfl⟩, .inl ⟨rfl, rfl⟩,
    by rw [List.append_nil, List.append_nil, List.append_nil], ?_⟩
  · cases neg
    · exact .inl ⟨rfl, rfl⟩
    · exact .inr (.inr ⟨rfl, rfl⟩)
  · rw [← natVal_eq, h1]
    cases neg <;> simp [Spec.digitsValue]

theorem denotes_dec (a k r : ℕ) (neg : Bool) : Spec.Denotes ((if neg then ['-'] else []) ++ (natStr a ++ '.' :: padDigits k r))
    ((if neg then -1 else 1) * ((a : K) + ((r % 10 ^ k : ℕ) : K) / 10 ^ k)) := by
  obtain ⟨h1, h2, h3⟩ := natStr_spec a
  obtain ⟨p1, p2, p3⟩ := padDigits_spec k r
  refine ⟨_, if neg then -1 else 1, natStr a, ['.'], padDigits k r, [], 0, ?_, (allDigits_iff _).2 h2, (allDigits_iff _).2 p3, .inl h3, .inl rfl,
    .inl ⟨rfl, rfl⟩, by rw [List.append_nil]; rfl, ?_⟩
  · cases neg
    · exact .inl ⟨rfl, rfl⟩
    · exact .inr (.inr ⟨rfl, rfl⟩)
  · rw [← natVal_eq, ← natVal_eq, h1, p1, p2]
    cases neg <;> simp

theorem natStr_head (n : ℕ) (s : List Char) : ∃ c t, natStr n ++ s = c :: t ∧ isDigit c = true := by
  obtain ⟨_, h2, h3⟩ := natStr_spec n
  cases h : natStr n with
  | nil => exact absurd h h3
  | cons c t => exact ⟨c, t ++ s, by simp, h2 c (by simp [h])⟩

theorem parseNum_int (z : ℤ) : parseNum (K := K) (intStr z) = some (z : K) := by
  unfold intStr
  split_ifs with h
  · have := parseNum_of (denotes_nat (K := K) z.natAbs true)
    simp only [if_true] at this
    rw [← List.singleton_append, this]
    congr 1
    have : (z : K) = ((-((z.natAbs : ℕ) : ℤ) : ℤ) : K) := by congr 1; omega
    rw [this, Int.cast_neg, Int.cast_natCast]
    ring
  · have := parseNum_of (denotes_nat (K := K) z.natAbs false)
    simp only [Bool.false_eq_true, if_false, List.nil_append, one_mul] at this
    rw [this]
    congr 1
    have : (z : K) = ((((z.natAbs : ℕ) : ℤ) : ℤ) : K) := by congr 1; omega
    rw [this, Int.cast_natCast]

theorem scanNum_int (z : ℤ) : scanNum (K := K) (intStr z) = some ((z : K), []) := parseNum_of_scan.1 (parseNum_int z)

/-- The number that `'{:16.8f}'` writes. -/
def r8 (x : K) : K :=
  (if x < 0 then -1 else 1) * ((roundEven (|x| * 10 ^ 8)).toNat : K) / 10 ^ 8

theorem parseNum_fixed8 (x : K) : parseNum (K := K) (fixed8 x) = some (r8 x) := by
  unfold fixed8 r8
  simp only
  generalize (roundEven (|x| * 10 ^ 8)).toNat = r
  have hv : ((r / 10 ^ 8 : ℕ) : K) + ((r % 10 ^ 8 % 10 ^ 8 : ℕ) : K) / 10 ^ 8 = (r : K) / 10 ^ 8 := by
    rw [Nat.mod_mod]
    have h := Nat.div_add_mod r (10 ^ 8)
    have h' : (r : K) = 10 ^ 8 * ((r / 10 ^ 8 : ℕ) : K) + ((r % 10 ^ 8 : ℕ) : K) := by
      conv_lhs => rw [← h]
      rw [Nat.cast_add, Nat.cast_mul, Nat.cast_pow]
      norm_num
    rw [h']
    field_simp
  split_ifs with h
  · have := parseNum_of (denotes_dec (K := K) (r / 10 ^ 8) 8 (r % 10 ^ 8) true)
    rw [hv] at this
    simp only [if_true] at this
    rw [← List.singleton_append, this]
    congr 1
    ring
  · have := parseNum_of (denotes_dec (K := K) (r / 10 ^ 8) 8 (r % 10 ^ 8) false)
    rw [hv] at this
    simp only [Bool.false_eq_true, if_false, List.nil_append, one_mul] at this
    rw [this]
    congr 1
    ring

/-- Rounding is to the nearest integer. -/
theorem roundEven_near (x : K) : |(roundEven x : K) - x| ≤ 1 / 2 := by
  have h := Int.floor_add_fract x
  have h0 := Int.fract_nonneg x
  have h1 := Int.fract_lt_one x
  unfold roundEven
  rw [abs_le]
  split_ifs with a b c <;> push_cast <;> constructor <;> linarith

theorem roundEven_nonneg (x : K) (hx : 0 ≤ x) : 0 ≤ roundEven x := by
  have := Int.floor_nonneg.2 hx
  unfold roundEven
  split_ifs <;> omega

/-! ### lines and tokens -/

/-- A token: not empty, no white space. -/
def IsToken (t : List Char) : Prop := t ≠ [] ∧ ∀ c ∈ t, isSpace c = false

theorem digit_not_space (c : Char) (h : isDigit c = true) : isSpace c = false := by
  have key : ∀ d : Char, isDigit d = false → d ≠ c := by rintro d hd rfl; rw [h] at hd; cases hd
  simp only [isSpace, Bool.or_eq_false_iff, beq_eq_false_iff_ne]
  exact ⟨⟨⟨⟨⟨(key _ rfl).symm, (key _ rfl).symm⟩, (key _ rfl).symm⟩, (key _ rfl).symm⟩, (key _ rfl).symm⟩, (key _ rfl).symm⟩

theorem natStr_token (n : ℕ) : IsToken (natStr n) :=
  ⟨(natStr_spec n).2.2, fun c hc => digit_not_space c ((natStr_spec n).2.1 c hc)⟩

theorem intStr_token (z : ℤ) : IsToken (intStr z) := by
  unfold intStr
  split_ifs with h
  · refine ⟨by simp, ?_⟩
    intro c hc
    rcases List.mem_cons.1 hc with rfl | hc
    · rfl
    · exact (natStr_token _).2 c hc
  · exact natStr_token _

theorem fixed8_token (x : K) : IsToken (fixed8 x) := by
  have body : ∀ a b, IsToken (natStr a ++ '.' :: padDigits 8 b) := by
    intro a b
    refine ⟨by simp, ?_⟩
    intro c hc
    rw [List.mem_append, List.mem_cons] at hc
    rcases hc with hc | rfl | hc
    · exact (natStr_token _).2 c hc
    · rfl
    · exact digit_not_space c ((padDigits_spec _ _).2.2 c hc)
  unfold fixed8
  simp only
  split_ifs with h
  · refine ⟨by simp, ?_⟩
    intro c hc
    rcases List.mem_cons.1 hc with rfl | hc
    · rfl
    · exact (body _ _).2 c hc
  · exact body _ _

theorem tokensGo_spaces (k : ℕ) (s : List Char) : tokensGo (List.replicate k ' ' ++ s) [] = tokensGo s [] := by
  induction k with
  | zero => rfl
  | succ k ih =>
    rw [List.replicate_succ, List.cons_append]
    simp only [tokensGo]
    rw [if_pos (by decide), if_pos trivial, ih]

theorem tokensGo_word (t s acc : List Char) (h : ∀ c ∈ t, isSpace c = false) :
    tokensGo (t ++ s) acc = tokensGo s (t.reverse ++ acc) := by
  induction t generalizing acc with
  | nil => rfl
  | cons c t ih =>
    rw [List.cons_append]
    simp only [tokensGo]
    rw [if_neg (by rw [h c List.mem_cons_self]; simp), ih _ (fun x hx => h x (List.mem_cons_of_mem _ hx))]
    simp

theorem tokensGo_token_space (t s : List Char) (ht : IsToken t) :
    tokensGo (t ++ ' ' :: s) [] = t :: tokensGo s [] := by
  rw [tokensGo_word t _ _ ht.2]
  simp only [tokensGo]
  rw [if_pos (by decide), if_neg (by simpa using ht.1)]
  simp

theorem tokensGo_token_end (t : List Char) (ht : IsToken t) : tokensGo t [] = [t] := by
  have := tokensGo_word t [] [] ht.2
  rw [List.append_nil] at this
  rw [this]
  simp only [tokensGo]
  rw [if_neg (by simpa using ht.1)]
  simp

/-- Right-aligned fields after each other, each preceded by a blank. -/
def fieldsText (fs : List (ℕ × List Char)) : List Char :=
  fs.flatMap fun f => ' ' :: (List.replicate f.1 ' ' ++ f.2)

theorem tokensGo_fields (fs : List (ℕ × List Char)) (h : ∀ f ∈ fs, IsToken f.2) :
    tokensGo (fieldsText fs) [] = fs.map Prod.snd ∧
    ∀ t, IsToken t → tokensGo (t ++ fieldsText fs) [] = t :: fs.map Prod.snd := by
  induction fs with
  | nil =>
    refine ⟨rfl, fun t ht => ?_⟩
    simp only [fieldsText, List.flatMap_nil, List.append_nil, List.map_nil]
    exact tokensGo_token_end t ht
  | cons f fs ih =>
    have ih := ih (fun x hx => h x (List.mem_cons_of_mem _ hx))
    have hf := h f List.mem_cons_self
    have e : tokensGo (fieldsText (f :: fs)) [] = (f :: fs).map Prod.snd := by
      have : fieldsText (f :: fs) = List.replicate (f.1 + 1) ' ' ++ (f.2 ++ fieldsText fs) := by
        simp [fieldsText, List.replicate_succ]
      rw [this, tokensGo_spaces, ih.2 _ hf, List.map_cons]
    refine ⟨e, fun t ht => ?_⟩
    have : fieldsText (f :: fs) = ' ' :: (List.replicate f.1 ' ' ++ (f.2 ++ fieldsText fs)) := by
      simp [fieldsText]
    rw [this, tokensGo_token_space _ _ ht, tokensGo_spaces, ih.2 _ hf, List.map_cons]

theorem parseAll_some {α : Type} (l : List α) (s : α → List Char) (v : α → K)
    (h : ∀ x ∈ l, parseNum (K := K) (s x) = some (v x)) : parseAll (K := K) (l.map s) = l.map v := by
  induction l with
  | nil => rfl
  | cons a l ih =>
    rw [List.map_cons, List.map_cons]
    simp only [parseAll]
    rw [parseNum_of_scan.1 (h a List.mem_cons_self)]
    simp only
    rw [ih (fun x hx => h x (List.mem_cons_of_mem _ hx))]

theorem linesGo_line (l s acc : List Char) (h : '\n' ∉ l) :
    linesGo (l ++ '\n' :: s) acc = (acc.reverse ++ l) :: linesGo s [] := by
  induction l generalizing acc with
  | nil => simp [linesGo]
  | cons c l ih =>
    rw [List.mem_cons, not_or] at h
    rw [List.cons_append]
    simp only [linesGo]
    rw [if_neg (fun e => h.1 e.symm), ih _ h.2]
    simp

theorem isComment_append (l s : List Char) (h : isComment (l ++ ['#']) = true) :
    isComment (l ++ '#' :: s) = true := by
  induction l with
  | nil => rfl
  | cons c l ih =>
    unfold isComment at h ih ⊢
    rw [List.cons_append, List.dropWhile_cons] at h ⊢
    split_ifs at h ⊢ with hc
    · exact ih h
    · split at h
      · rename_i t heq
        injection heq with h1 h2
        subst h1
        rfl
      · cases h

/-- A header all of whose lines are comments; its last line may be incomplete. -/
theorem linesGo_header (h s rest acc : List Char) (hs : '\n' ∉ s)
    (hc : ∀ l ∈ linesGo (h ++ ['#']) acc, isComment l = true) :
    ∃ L, linesGo (h ++ '#' :: (s ++ '\n' :: rest)) acc = L ++ linesGo rest [] ∧ ∀ l ∈ L, isComment l = true := by
  induction h generalizing acc with
  | nil =>
    refine ⟨[acc.reverse ++ '#' :: s], ?_, ?_⟩
    · have := linesGo_line ('#' :: s) rest acc (by
        rw [List.mem_cons, not_or]; exact ⟨by decide, hs⟩)
      rw [List.nil_append, ← List.cons_append, this]
      rfl
    · intro l hl
      rw [List.mem_singleton] at hl
      subst hl
      apply isComment_append
      apply hc
      simp [linesGo]
  | cons c h ih =>
    simp only [List.cons_append, linesGo] at hc ⊢
    split_ifs at hc ⊢ with hcn
    · obtain ⟨L, e, hL⟩ := ih [] (fun l hl => hc l (List.mem_cons_of_mem _ hl))
      refine ⟨acc.reverse :: L, by rw [e]; rfl, ?_⟩
      intro l hl
      rcases List.mem_cons.1 hl with rfl | hl
      · exact hc _ List.mem_cons_self
      · exact hL l hl
    · exact ih (c :: acc) hc

end
end ChaosMagPy.Shc
