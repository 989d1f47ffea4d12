import Verif.Lemmas.ConfigText
import Mathlib.Data.Nat.Digits.Lemmas
import Verif.Props.Config
/-!
# Reading the text of configuration files back
-/
namespace ChaosMagPy.ConfigText
open ChaosMagPy.Config
open ChaosMagPy.Shc (natVal isDigit intStr natStr)

/-! ### Strings -/

theorem hexVal_hexDigit (k : ℕ) (h : k < 16) : hexVal (hexDigit k) = some k := by
  have : ∀ i : Fin 16, hexVal (hexDigit i.1) = some i.1 := by decide
  exact this ⟨k, h⟩

theorem hex4_hexEscape (n : ℕ) (h : n < 65536) (r : List Char) : hex4 ((hexEscape n ++ r).drop 2) = some (n, r) := by
  have h1 := hexVal_hexDigit (n / 4096 % 16) (Nat.mod_lt _ (by norm_num))
  have h2 := hexVal_hexDigit (n / 256 % 16) (Nat.mod_lt _ (by norm_num))
  have h3 := hexVal_hexDigit (n / 16 % 16) (Nat.mod_lt _ (by norm_num))
  have h4 := hexVal_hexDigit (n % 16) (Nat.mod_lt _ (by norm_num))
  simp only [hexEscape, List.cons_append, List.nil_append, List.drop_succ_cons, List.drop_zero, hex4]
  rw [h1, h2, h3, h4]
  simp only [bind, Option.bind, pure, Option.some.injEq, Prod.mk.injEq, and_true]
  omega

theorem char_range (c : Char) : c.toNat < 55296 ∨ (57343 < c.toNat ∧ c.toNat < 1114112) := by
  have := c.valid
  simp only [UInt32.isValidChar, Nat.isValidChar] at this
  exact this

theorem ofNat_toNat (c : Char) : Char.ofNat c.toNat = c := Char.ofNat_toNat c

theorem hexEscape_take (n : ℕ) (r : List Char) : (hexEscape n ++ r).take 2 = ['\\', 'u'] := rfl

theorem nextChar_u (w : List Char) : nextChar ('\\' :: 'u' :: w) = (unicodeEscape w).map fun p => (some p.1, p.2) := by
  simp only [nextChar]
  rw [if_neg (by decide), if_pos trivial, if_pos trivial]

theorem nextChar_hexEscape (n : ℕ) (r : List Char) : nextChar (hexEscape n ++ r) = (unicodeEscape ((hexEscape n ++ r).drop 2)).map fun p => (some p.1, p.2) :=
  nextChar_u _

theorem unicodeEscape_single (v : ℕ) (h : v < 65536) (h1 : v < 55296 ∨ 57343 < v) (r : List Char) :
    unicodeEscape ((hexEscape v ++ r).drop 2) = some (Char.ofNat v, r) := by
  unfold unicodeEscape
  rw [hex4_hexEscape _ h]
  simp only [bind, Option.bind]
  rw [if_neg (by omega), if_neg (by omega)]
  rfl

theorem unicodeEscape_pair (v w : ℕ) (h1 : 55296 ≤ v) (h2 : v ≤ 56319) (h3 : 56320 ≤ w) (h4 : w ≤ 57343) (r : List Char) :
    unicodeEscape ((hexEscape v ++ (hexEscape w ++ r)).drop 2) = some (Char.ofNat (65536 + (v - 55296) * 1024 + (w - 56320)), r) := by
  unfold unicodeEscape
  rw [hex4_hexEscape _ (by omega)]
  simp only [bind, Option.bind]
  rw [if_pos ⟨h1, h2⟩, if_pos (hexEscape_take _ _), hex4_hexEscape _ (by omega)]
  simp only
  rw [if_pos ⟨h3, h4⟩]
  rfl

theorem nextChar_escape_hex (c : Char) (h8 : ¬ (32 ≤ c.toNat ∧ c.toNat ≤ 126)) (r : List Char) :
    nextChar ((if c.toNat < 65536 then hexEscape c.toNat
      else hexEscape (55296 + (c.toNat - 65536) / 1024 % 1024) ++ hexEscape (56320 + (c.toNat - 65536) % 1024)) ++ r) = some (some c, r) := by
  have hr := char_range c
  by_cases h9 : c.toNat < 65536
  · rw [if_pos h9, nextChar_hexEscape, unicodeEscape_single _ h9 (by omega), Option.map_some, Char.ofNat_toNat]
  · rw [if_neg h9, List.append_assoc, nextChar_hexEscape]
    obtain ⟨v, hv⟩ : ∃ v, v = 55296 + (c.toNat - 65536) / 1024 % 1024 := ⟨_, rfl⟩
    obtain ⟨w, hw⟩ : ∃ w, w = 56320 + (c.toNat - 65536) % 1024 := ⟨_, rfl⟩
    rw [← hv, ← hw, unicodeEscape_pair v w (by omega) (by omega) (by omega) (by omega), Option.map_some]
    have e : 65536 + (v - 55296) * 1024 + (w - 56320) = c.toNat := by omega
    rw [e, Char.ofNat_toNat]

theorem nextChar_escape (c : Char) (r : List Char) : nextChar (escapeChar c ++ r) = some (some c, r) := by
  unfold escapeChar
  by_cases h1 : c = '\\'
  · subst h1; rfl
  rw [if_neg h1]
  by_cases h2 : c = '"'
  · subst h2; rfl
  rw [if_neg h2]
  by_cases h3 : c = '\n'
  · subst h3; rfl
  rw [if_neg h3]
  by_cases h4 : c = '\r'
  · subst h4; rfl
  rw [if_neg h4]
  by_cases h5 : c = '\t'
  · subst h5; rfl
  rw [if_neg h5]
  by_cases h6 : c = '\x0c'
  · subst h6; rfl
  rw [if_neg h6]
  by_cases h7 : c = '\x08'
  · subst h7; rfl
  rw [if_neg h7]
  by_cases h8 : 32 ≤ c.toNat ∧ c.toNat ≤ 126
  · rw [if_pos h8]
    simp only [List.cons_append, List.nil_append, nextChar]
    rw [if_neg h2, if_neg h1, if_neg (by omega)]
  rw [if_neg h8]
  exact nextChar_escape_hex c h8 r

theorem parseStrGo_chars (cs : List Char) (r : List Char) : ∀ n, cs.length + 1 ≤ n → parseStrGo n (cs.flatMap escapeChar ++ '"' :: r) = some (cs, r) := by
  induction cs with
  | nil =>
    intro n hn
    obtain ⟨n, rfl⟩ : ∃ k, n = k + 1 := ⟨n - 1, by simp only [List.length_nil] at hn; omega⟩
    rfl
  | cons c cs ih =>
    intro n hn
    rw [List.length_cons] at hn
    obtain ⟨n, rfl⟩ : ∃ k, n = k + 1 := ⟨n - 1, by omega⟩
    rw [List.flatMap_cons, List.append_assoc]
    simp only [parseStrGo, nextChar_escape]
    rw [ih n (by omega)]
    rfl

theorem escapeChar_length (c : Char) : 1 ≤ (escapeChar c).length := by
  unfold escapeChar hexEscape
  split_ifs <;> simp

theorem flatMap_escape_length (cs : List Char) : cs.length ≤ (cs.flatMap escapeChar).length := by
  induction cs with
  | nil => simp
  | cons c cs ih =>
    rw [List.flatMap_cons, List.length_append, List.length_cons]
    have := escapeChar_length c
    omega

/-- A quoted string comes back. -/
theorem parseStr_quote (s : String) (r : List Char) : ∃ u, quote s ++ r = '"' :: u ∧ parseStr u = some (s, r) := by
  refine ⟨s.toList.flatMap escapeChar ++ '"' :: r, by simp [quote], ?_⟩
  unfold parseStr
  rw [parseStrGo_chars _ _ _ (by
    rw [List.length_append]
    have := flatMap_escape_length s.toList
    omega)]
  simp

/-! ### Numbers -/

/-- The text ends, or a character follows that may follow a value. -/
def Ends (r : List Char) : Prop := r = [] ∨ DelimHead r

theorem ends_head {r : List Char} (h : Ends r) (p : Char → Prop) (hp : ∀ c, isDelim c = true → ¬ p c) : ∀ c, r.head? = some c → ¬ p c := by
  intro c hc
  rcases h with rfl | ⟨d, r', rfl, hd⟩
  · cases hc
  · injection hc with hc
    subst hc
    exact hp _ hd

theorem while_stop (p : Char → Bool) (a r : List Char) (ha : ∀ c ∈ a, p c = true) (hr : ∀ c, r.head? = some c → p c = false) :
    (a ++ r).takeWhile p = a ∧ (a ++ r).dropWhile p = r := by
  induction a with
  | nil =>
    cases r with
    | nil => exact ⟨rfl, rfl⟩
    | cons c r =>
      have := hr c rfl
      simp [this]
  | cons c a ih =>
    have hc := ha c List.mem_cons_self
    have := ih (fun x hx => ha x (List.mem_cons_of_mem _ hx))
    simp only [List.cons_append, List.takeWhile_cons, List.dropWhile_cons, hc, if_true, this.1, this.2, and_self]

theorem intPart_digits {a : List Char} (ha : ∀ c ∈ a, isDigit c = true) (hne : a ≠ []) (h0 : a = ['0'] ∨ a.head? ≠ some '0') (r : List Char)
    (hr : ∀ c, r.head? = some c → isDigit c = false) : intPart (a ++ r) = (a, r) := by
  unfold intPart
  rcases h0 with rfl | h0
  · rfl
  · have : (a ++ r).head? ≠ some '0' := by
      cases a with
      | nil => exact absurd rfl hne
      | cons c a => exact h0
    rw [if_neg this, (while_stop isDigit a r ha hr).1, (while_stop isDigit a r ha hr).2]

theorem natStr_zero_head (n : ℕ) : natStr n = ['0'] ∨ (natStr n).head? ≠ some '0' := by
  unfold natStr
  split_ifs with h
  · exact .inl rfl
  · right
    rw [List.head?_reverse, List.getLast?_map]
    have hne : Nat.digits 10 n ≠ [] := Nat.digits_ne_nil_iff_ne_zero.2 h
    rw [List.getLast?_eq_some_getLast hne]
    intro hh
    have hlast := Nat.getLast_digit_ne_zero 10 h
    have hlt : (Nat.digits 10 n).getLast hne < 10 := Nat.digits_lt_base (by norm_num) (List.getLast_mem hne)
    simp only [Option.map_some, Option.some.injEq] at hh
    generalize (Nat.digits 10 n).getLast hne = d at hh hlast hlt
    have : ∀ i : Fin 10, Shc.digitChar i.1 = '0' → i.1 = 0 := by decide
    exact hlast (this ⟨d, hlt⟩ hh)

theorem natStr_cons (n : ℕ) : ∃ c s, natStr n = c :: s ∧ isDigit c = true := by
  obtain ⟨-, h2, h3⟩ := Shc.natStr_spec n
  cases h : natStr n with
  | nil => exact absurd h h3
  | cons c s => exact ⟨c, s, rfl, h2 c (by rw [h]; exact List.mem_cons_self)⟩

/-- An integer comes back. -/
theorem parseNumber_int (ft : FloatText) (i : ℤ) (r : List Char) (hr : Ends r) : parseNumber ft (intStr i ++ r) = some (.int i, r) := by
  obtain ⟨h1, h2, h3⟩ := Shc.natStr_spec i.natAbs
  have hdig : ∀ c, r.head? = some c → isDigit c = false := by
    intro c hc
    have := ends_head hr (fun c => isDigit c = true) (fun c hc => by rw [(delim_not_digit hc).1]; decide) c hc
    simpa using this
  have hdot : r.head? ≠ some '.' := fun hc => ends_head hr (fun c => c = '.') (fun c hc => (delim_not_digit hc).2.1) _ hc rfl
  have hI := intPart_digits h2 h3 (natStr_zero_head _) r hdig
  have hF : fracPart r = ([], r) := by
    unfold fracPart
    rw [if_neg (fun hh => hdot hh.1)]
  have hE : expPart r = ([], r) := by
    cases r with
    | nil => rfl
    | cons c r =>
      have he : ¬ (c = 'e' ∨ c = 'E') := ends_head hr (fun c => c = 'e' ∨ c = 'E')
        (fun c hc hh => by rcases hh with rfl | rfl <;> exact absurd hc (by decide)) c rfl
      simp only [expPart]
      rw [if_neg (fun hh => he hh.1)]
  obtain ⟨d, w, hd, hdd⟩ := natStr_cons i.natAbs
  unfold parseNumber intStr
  by_cases hi : i < 0
  · rw [if_pos hi]
    simp only [List.cons_append, List.head?_cons, List.tail_cons, decide_true, if_true]
    rw [hI]
    simp only
    rw [if_neg h3, hF]
    simp only
    rw [hE]
    simp only [and_self, if_true, h1]
    congr 3
    omega
  · rw [if_neg hi]
    have hneg : decide ((natStr i.natAbs ++ r).head? = some '-') = false := by
      rw [hd]
      simp only [List.cons_append, List.head?_cons, decide_eq_false_iff_not, Option.some.injEq]
      rintro rfl
      exact absurd hdd (by decide)
    rw [hneg]
    simp only [Bool.false_eq_true, if_false]
    rw [hI]
    simp only
    rw [if_neg h3, hF]
    simp only
    rw [hE]
    simp only [and_self, if_true, h1]
    congr 3
    omega

theorem isDigit_ne {c : Char} (h : isDigit c = true) : c ≠ '-' ∧ c ≠ 'n' ∧ c ≠ 't' ∧ c ≠ 'f' ∧ c ≠ 'N' ∧ c ≠ 'I' ∧ c ≠ '"' ∧ c ≠ '[' ∧ c ≠ '{' ∧ c ≠ '+' ∧ isWs c = false ∧ c ≠ ']' ∧ c ≠ '}' := by
  refine ⟨?_, ?_, ?_, ?_, ?_, ?_, ?_, ?_, ?_, ?_, ?_, ?_, ?_⟩
  case refine_11 =>
    by_contra hw
    simp only [isWs, Bool.not_eq_false, Bool.or_eq_true, beq_iff_eq] at hw
    rcases hw with ((rfl | rfl) | rfl) | rfl <;> exact absurd h (by decide)
  all_goals (rintro rfl; exact absurd h (by decide))

/-- A float comes back. -/
theorem parseNumber_float (ft : FloatText) (q : ℚ) (hq : ft.isFloat q) (r : List Char) (hr : Ends r) : parseNumber ft (ft.repr q ++ r) = some (.flt (.fin q), r) := by
  have hback := ft.back q hq
  obtain ⟨sg, a, f, e, hs, hsg, ha, ha0, hz, hf, he, hfe⟩ := ft.shape q hq
  rw [hs] at hback ⊢
  have hdig : ∀ c, r.head? = some c → isDigit c = false := by
    intro c hc
    have := ends_head hr (fun c => isDigit c = true) (fun c hc => by rw [(delim_not_digit hc).1]; decide) c hc
    simpa using this
  have hdot : r.head? ≠ some '.' := fun hc => ends_head hr (fun c => c = '.') (fun c hc => (delim_not_digit hc).2.1) _ hc rfl
  -- what follows the digits
  have hE : expPart (e ++ r) = (e, r) := by
    rcases he with rfl | ⟨d, he, hd0, hd⟩
    · cases r with
      | nil => rfl
      | cons c r =>
        have he : ¬ (c = 'e' ∨ c = 'E') := ends_head hr (fun c => c = 'e' ∨ c = 'E')
          (fun c hc hh => by rcases hh with rfl | rfl <;> exact absurd hc (by decide)) c rfl
        rw [List.nil_append]
        simp only [expPart]
        rw [if_neg (fun hh => he hh.1)]
    · have hw := while_stop isDigit d r hd hdig
      rcases he with rfl | rfl
      · simp only [List.cons_append, expPart]
        have : expSign ('+' :: (d ++ r)) = (['+'], d ++ r) := rfl
        rw [this]
        simp only
        rw [hw.1, hw.2, if_pos ⟨.inl trivial, hd0⟩]
        rfl
      · simp only [List.cons_append, expPart]
        have : expSign ('-' :: (d ++ r)) = (['-'], d ++ r) := rfl
        rw [this]
        simp only
        rw [hw.1, hw.2, if_pos ⟨.inl trivial, hd0⟩]
        rfl
  have hEhead : ∀ c, (e ++ r).head? = some c → isDigit c = false ∧ c ≠ '.' := by
    intro c hc
    rcases he with rfl | ⟨d, he | he, -, -⟩
    · exact ⟨hdig c hc, fun h => hdot (by rw [← h]; exact hc)⟩
    · subst he
      injection hc with hc; subst hc
      decide
    · subst he
      injection hc with hc; subst hc
      decide
  have hF : fracPart (f ++ (e ++ r)) = (f, e ++ r) := by
    rcases hf with rfl | ⟨d, rfl, hd0, hd⟩
    · unfold fracPart
      rw [List.nil_append, if_neg (fun hh => (hEhead _ hh.1).2 rfl)]
    · unfold fracPart
      have hw := while_stop isDigit d (e ++ r) hd (fun c hc => (hEhead c hc).1)
      have e1 : ('.' :: d ++ (e ++ r)).tail = d ++ (e ++ r) := rfl
      have e2 : ('.' :: d ++ (e ++ r)).head? = some '.' := rfl
      rw [e1, hw.1, hw.2, if_pos ⟨e2, hd0⟩]
  have hI : intPart (a ++ (f ++ (e ++ r))) = (a, f ++ (e ++ r)) := by
    refine intPart_digits ha ha0 hz _ ?_
    intro c hc
    rcases hf with rfl | ⟨d, rfl, hd0, hd⟩
    · exact (hEhead c hc).1
    · injection hc with hc; subst hc
      decide
  have hfe' : ¬ (f = [] ∧ e = []) := by
    rintro ⟨h1, h2⟩
    rcases hfe with h | h <;> contradiction
  unfold parseNumber
  rcases hsg with rfl | rfl
  · have hneg : decide (([] ++ (a ++ (f ++ e)) ++ r).head? = some '-') = false := by
      cases a with
      | nil => exact absurd rfl ha0
      | cons c a =>
        simp only [List.nil_append, List.cons_append, List.head?_cons, decide_eq_false_iff_not, Option.some.injEq]
        exact (isDigit_ne (ha c List.mem_cons_self)).1
    rw [hneg]
    simp only [Bool.false_eq_true, if_false, List.nil_append, List.append_assoc]
    rw [hI]
    simp only
    rw [if_neg ha0, hF]
    simp only
    rw [hE]
    simp only
    rw [if_neg hfe']
    rw [List.nil_append] at hback
    rw [hback]
  · have hneg : decide ((['-'] ++ (a ++ (f ++ e)) ++ r).head? = some '-') = true := by
      simp
    rw [hneg]
    have e1 : (['-'] ++ (a ++ (f ++ e)) ++ r).tail = a ++ (f ++ (e ++ r)) := by simp
    simp only [if_true]
    rw [e1, hI]
    simp only
    rw [if_neg ha0, hF]
    simp only
    rw [hE]
    simp only
    rw [if_neg hfe', hback]

/-! ### Scalars -/

/-- The float in the scalar, if any, is one that the conversion handles. -/
def PrintableSc (ft : FloatText) : Sc → Prop
  | .flt (.fin q) => ft.isFloat q
  | _ => True

/-- All floats are numbers that the conversion handles; lists contain scalars only. -/
def Printable (ft : FloatText) : Val → Prop
  | .sc s => PrintableSc ft s
  | .list xs => ∀ x ∈ xs, ∃ s, x = some s ∧ PrintableSc ft s
  | .arr xs => ∀ s ∈ xs, PrintableSc ft s
  | .other _ => True

/-- The first character of a printed scalar. -/
def Opens (c : Char) : Prop := isWs c = false ∧ c ≠ ']' ∧ c ≠ '}'

theorem repr_head (ft : FloatText) (q : ℚ) (hq : ft.isFloat q) : ∃ c u, ft.repr q = c :: u ∧ (isDigit c = true ∨ (c = '-' ∧ ∃ d w, u = d :: w ∧ isDigit d = true)) := by
  obtain ⟨sg, a, f, e, hs, hsg, ha, ha0, -⟩ := ft.shape q hq
  cases a with
  | nil => exact absurd rfl ha0
  | cons c a =>
    have hc := ha c List.mem_cons_self
    rcases hsg with rfl | rfl
    · exact ⟨c, a ++ (f ++ e), hs, .inl hc⟩
    · exact ⟨'-', c :: (a ++ (f ++ e)), hs, .inr ⟨rfl, c, _, rfl, hc⟩⟩

theorem intStr_head (i : ℤ) : ∃ c u, intStr i = c :: u ∧ (isDigit c = true ∨ (c = '-' ∧ ∃ d w, u = d :: w ∧ isDigit d = true)) := by
  obtain ⟨d, w, hd, hdd⟩ := natStr_cons i.natAbs
  unfold intStr
  split_ifs
  · exact ⟨'-', natStr i.natAbs, rfl, .inr ⟨rfl, d, w, hd, hdd⟩⟩
  · exact ⟨d, w, hd, .inl hdd⟩

theorem number_opens {c : Char} {u : List Char} (h : isDigit c = true ∨ (c = '-' ∧ ∃ d w, u = d :: w ∧ isDigit d = true)) : Opens c := by
  rcases h with h | ⟨rfl, -⟩
  · have := isDigit_ne h
    exact ⟨this.2.2.2.2.2.2.2.2.2.2.1, this.2.2.2.2.2.2.2.2.2.2.2.1, this.2.2.2.2.2.2.2.2.2.2.2.2⟩
  · exact ⟨by decide, by decide, by decide⟩

theorem printSc_head (ft : FloatText) (s : Sc) (hs : PrintableSc ft s) : ∃ c u, printSc ft s = c :: u ∧ Opens c := by
  match s, hs with
  | .none, _ => exact ⟨_, _, rfl, by decide, by decide, by decide⟩
  | .bool true, _ => exact ⟨_, _, rfl, by decide, by decide, by decide⟩
  | .bool false, _ => exact ⟨_, _, rfl, by decide, by decide, by decide⟩
  | .int i, _ =>
    obtain ⟨c, u, h, h'⟩ := intStr_head i
    exact ⟨c, u, h, number_opens h'⟩
  | .flt (.fin q), hq =>
    obtain ⟨c, u, h, h'⟩ := repr_head ft q hq
    exact ⟨c, u, h, number_opens h'⟩
  | .flt .nan, _ => exact ⟨_, _, rfl, by decide, by decide, by decide⟩
  | .flt (.inf false), _ => exact ⟨_, _, rfl, by decide, by decide, by decide⟩
  | .flt (.inf true), _ => exact ⟨_, _, rfl, by decide, by decide, by decide⟩
  | .str s, _ => exact ⟨_, _, rfl, by decide, by decide, by decide⟩

theorem parseAtom_number (ft : FloatText) {c : Char} {u : List Char} (h : isDigit c = true ∨ (c = '-' ∧ ∃ d w, u = d :: w ∧ isDigit d = true)) (r : List Char) :
    parseAtom ft (c :: u ++ r) = parseNumber ft (c :: u ++ r) := by
  unfold parseAtom
  have e : (c :: u ++ r).head? = some c := rfl
  have hc : c ≠ 'n' ∧ c ≠ 't' ∧ c ≠ 'f' ∧ c ≠ 'N' ∧ c ≠ 'I' := by
    rcases h with h | ⟨rfl, -⟩
    · have := isDigit_ne h
      exact ⟨this.2.1, this.2.2.1, this.2.2.2.1, this.2.2.2.2.1, this.2.2.2.2.2.1⟩
    · decide
  have hI : ¬ ((c :: u ++ r).head? = some '-' ∧ (c :: u ++ r).tail.head? = some 'I') := by
    rintro ⟨h1, h2⟩
    rcases h with h | ⟨-, d, w, rfl, hd⟩
    · exact (isDigit_ne h).1 (Option.some.inj h1)
    · exact (isDigit_ne hd).2.2.2.2.2.1 (Option.some.inj h2)
  rw [if_neg (by rw [e]; exact fun hh => hc.1 (Option.some.inj hh)), if_neg (by rw [e]; exact fun hh => hc.2.1 (Option.some.inj hh)),
    if_neg (by rw [e]; exact fun hh => hc.2.2.1 (Option.some.inj hh)), if_neg (by rw [e]; exact fun hh => hc.2.2.2.1 (Option.some.inj hh)),
    if_neg (by rw [e]; exact fun hh => hc.2.2.2.2 (Option.some.inj hh)), if_neg hI]

theorem parseValue_atom (ft : FloatText) (n : ℕ) {c : Char} {u : List Char} (h1 : c ≠ '"') (h2 : c ≠ '[') (h3 : c ≠ '{') :
    parseValue ft (n + 1) (c :: u) = (parseAtom ft (c :: u)).map fun p => (.sc p.1, p.2) := by
  simp only [parseValue]
  rw [if_neg h1, if_neg h2, if_neg h3]

/-- A scalar comes back. -/
theorem parseValue_sc (ft : FloatText) (s : Sc) (hs : PrintableSc ft s) (n : ℕ) (hn : 1 ≤ n) (r : List Char) (hr : Ends r) :
    parseValue ft n (printSc ft s ++ r) = some (.sc s, r) := by
  obtain ⟨n, rfl⟩ : ∃ m, n = m + 1 := ⟨n - 1, by omega⟩
  have hnum : ∀ (x : Sc) (w : List Char), (∃ c u, w = c :: u ∧ (isDigit c = true ∨ (c = '-' ∧ ∃ d w, u = d :: w ∧ isDigit d = true))) →
      parseNumber ft (w ++ r) = some (x, r) → parseValue ft (n + 1) (w ++ r) = some (.sc x, r) := by
    rintro x _ ⟨c, u, rfl, h⟩ hp
    have hc : c ≠ '"' ∧ c ≠ '[' ∧ c ≠ '{' := by
      rcases h with h | ⟨rfl, -⟩
      · have := isDigit_ne h
        exact ⟨this.2.2.2.2.2.2.1, this.2.2.2.2.2.2.2.1, this.2.2.2.2.2.2.2.2.1⟩
      · decide
    have := parseAtom_number ft h r
    rw [List.cons_append] at this hp ⊢
    rw [parseValue_atom ft n hc.1 hc.2.1 hc.2.2, this, hp]
    rfl
  match s, hs with
  | .none, _ => rfl
  | .bool true, _ => rfl
  | .bool false, _ => rfl
  | .int i, _ => exact hnum _ _ (intStr_head i) (parseNumber_int ft i r hr)
  | .flt (.fin q), hq => exact hnum _ _ (repr_head ft q hq) (parseNumber_float ft q hq r hr)
  | .flt .nan, _ => rfl
  | .flt (.inf false), _ => rfl
  | .flt (.inf true), _ => rfl
  | .str s, _ =>
    obtain ⟨u, hu, hp⟩ := parseStr_quote s r
    simp only [printSc]
    rw [hu]
    simp only [parseValue]
    rw [if_pos trivial, hp]
    rfl

/-! ### Lists and values -/

theorem skipWs_cons {c : Char} (h : isWs c = false) (u : List Char) : skipWs (c :: u) = c :: u := by
  simp [skipWs, h]

theorem skipWs_spaces (k : ℕ) {c : Char} (h : isWs c = false) (u : List Char) : skipWs (List.replicate k ' ' ++ c :: u) = c :: u := by
  induction k with
  | zero => exact skipWs_cons h u
  | succ k ih =>
    rw [List.replicate_succ]
    exact ih

theorem skipWs_newline (k : ℕ) {c : Char} (h : isWs c = false) (u : List Char) : skipWs ('\n' :: (List.replicate k ' ' ++ c :: u)) = c :: u :=
  skipWs_spaces k h u

theorem ends_newline (u : List Char) : Ends ('\n' :: u) := .inr ⟨_, _, rfl, by decide⟩
theorem ends_comma (u : List Char) : Ends (',' :: u) := .inr ⟨_, _, rfl, by decide⟩

/-- The elements of a list come back. -/
theorem parseElems_join (ft : FloatText) (k j : ℕ) (xs : List Sc) (hx : ∀ s ∈ xs, PrintableSc ft s) (h0 : xs ≠ []) (r : List Char) :
    ∀ n, xs.length + 1 ≤ n → parseElems ft n (joinItems k (xs.map (printSc ft)) ++ ('\n' :: (List.replicate j ' ' ++ ']' :: r))) = some (xs.map .sc, r) := by
  induction xs with
  | nil => exact absurd rfl h0
  | cons x xs ih =>
    intro n hn
    rw [List.length_cons] at hn
    obtain ⟨n, rfl⟩ : ∃ m, n = m + 1 := ⟨n - 1, by omega⟩
    have hn1 : 1 ≤ n := by omega
    have hxx := hx x List.mem_cons_self
    cases xs with
    | nil =>
      simp only [List.map_cons, List.map_nil, joinItems, parseElems]
      rw [parseValue_sc ft x hxx n hn1 _ (ends_newline _)]
      simp only
      rw [skipWs_newline j (by decide), List.head?_cons, if_pos rfl]
      rfl
    | cons y ys =>
      simp only [List.map_cons, joinItems, parseElems, List.append_assoc, List.cons_append]
      rw [parseValue_sc ft x hxx n hn1 _ (ends_comma _)]
      simp only
      obtain ⟨c, u, hc, ho⟩ := printSc_head ft y (hx y (List.mem_cons_of_mem _ List.mem_cons_self))
      have hj : ∃ w, joinItems k (printSc ft y :: ys.map (printSc ft)) = c :: w := by
        cases ys with
        | nil => exact ⟨u, by simp only [List.map_nil, joinItems]; exact hc⟩
        | cons z zs => exact ⟨_, by simp only [List.map_cons, joinItems, hc, List.cons_append]; rfl⟩
      obtain ⟨w, hw⟩ := hj
      rw [skipWs_cons (by decide), List.head?_cons, if_neg (by decide), if_pos rfl, List.tail_cons]
      have hsk : skipWs ('\n' :: (List.replicate k ' ' ++ (joinItems k (printSc ft y :: ys.map (printSc ft)) ++ '\n' :: (List.replicate j ' ' ++ ']' :: r)))) =
          joinItems k (printSc ft y :: ys.map (printSc ft)) ++ '\n' :: (List.replicate j ' ' ++ ']' :: r) := by
        rw [hw, List.cons_append]
        exact skipWs_newline k ho.1 _
      rw [hsk]
      have := ih (fun s hs => hx s (List.mem_cons_of_mem _ hs)) (by simp) n (by simp only [List.length_cons] at hn ⊢; omega)
      rw [List.map_cons] at this
      rw [this]
      rfl

/-- The JSON value printed for a configuration value. -/
def toJson : Val → Json
  | .sc s => .sc s
  | .list xs => .arr (xs.map fun x => .sc (x.getD .none))
  | .arr xs => .arr (xs.map .sc)
  | .other _ => .sc .none

theorem joinItems_length (k : ℕ) (xs : List (List Char)) (h : ∀ x ∈ xs, x ≠ []) : xs.length ≤ (joinItems k xs).length := by
  induction xs with
  | nil => simp
  | cons x xs ih =>
    have hx : 1 ≤ x.length := List.length_pos_iff.2 (h x List.mem_cons_self)
    have := ih (fun y hy => h y (List.mem_cons_of_mem _ hy))
    cases xs with
    | nil => simp only [joinItems, List.length_cons, List.length_nil]; omega
    | cons y ys =>
      simp only [joinItems, List.length_append, List.length_cons] at this ⊢
      omega

theorem printSc_ne (ft : FloatText) (s : Sc) (hs : PrintableSc ft s) : printSc ft s ≠ [] := by
  obtain ⟨c, u, h, -⟩ := printSc_head ft s hs
  rw [h]; simp

/-- The text of a list of scalars. -/
def block (ft : FloatText) (xs : List Sc) : List Char :=
  if xs.map (printSc ft) = [] then ['[', ']']
  else '[' :: '\n' :: (List.replicate 8 ' ' ++ (joinItems 8 (xs.map (printSc ft)) ++ ('\n' :: (List.replicate 4 ' ' ++ [']']))))

theorem joinItems_head (ft : FloatText) (k : ℕ) (x : Sc) (xs : List Sc) (hx : PrintableSc ft x) :
    ∃ c w, joinItems k ((x :: xs).map (printSc ft)) = c :: w ∧ Opens c := by
  obtain ⟨c, u, hc, ho⟩ := printSc_head ft x hx
  cases xs with
  | nil => exact ⟨c, u, by simp only [List.map_cons, List.map_nil, joinItems]; exact hc, ho⟩
  | cons z zs => exact ⟨c, _, by simp only [List.map_cons, joinItems, hc, List.cons_append]; rfl, ho⟩

theorem parseValue_block (ft : FloatText) (xs : List Sc) (hx : ∀ s ∈ xs, PrintableSc ft s) (n : ℕ) (hn : (block ft xs).length ≤ n) (r : List Char) :
    parseValue ft n (block ft xs ++ r) = some (.arr (xs.map .sc), r) := by
  cases xs with
  | nil =>
    obtain ⟨n, rfl⟩ : ∃ m, n = m + 1 := ⟨n - 1, by simp [block] at hn; omega⟩
    rfl
  | cons x xs =>
    have hb : block ft (x :: xs) = '[' :: '\n' :: (List.replicate 8 ' ' ++ (joinItems 8 ((x :: xs).map (printSc ft)) ++ ('\n' :: (List.replicate 4 ' ' ++ [']'])))) := by
      unfold block
      rw [if_neg (by simp)]
    have hl := joinItems_length 8 ((x :: xs).map (printSc ft)) (by
      intro y hy
      obtain ⟨s, hs, rfl⟩ := List.mem_map.1 hy
      exact printSc_ne ft s (hx s hs))
    rw [List.length_map] at hl
    rw [hb] at hn ⊢
    simp only [List.length_cons, List.length_append] at hn hl
    obtain ⟨n, rfl⟩ : ∃ m, n = m + 1 := ⟨n - 1, by omega⟩
    obtain ⟨c, w, hw, ho⟩ := joinItems_head ft 8 x xs (hx x List.mem_cons_self)
    have hsk : skipWs ('\n' :: (List.replicate 8 ' ' ++ (joinItems 8 ((x :: xs).map (printSc ft)) ++ ('\n' :: (List.replicate 4 ' ' ++ ']' :: r))))) =
        joinItems 8 ((x :: xs).map (printSc ft)) ++ ('\n' :: (List.replicate 4 ' ' ++ ']' :: r)) := by
      rw [hw, List.cons_append]
      exact skipWs_newline 8 ho.1 _
    have hp := parseElems_join ft 8 4 (x :: xs) hx (by simp) r n (by simp only [List.length_cons]; omega)
    have e : '[' :: '\n' :: (List.replicate 8 ' ' ++ (joinItems 8 ((x :: xs).map (printSc ft)) ++ ('\n' :: (List.replicate 4 ' ' ++ [']'])))) ++ r =
        '[' :: ('\n' :: (List.replicate 8 ' ' ++ (joinItems 8 ((x :: xs).map (printSc ft)) ++ ('\n' :: (List.replicate 4 ' ' ++ ']' :: r))))) := by
      simp only [List.cons_append, List.append_assoc, List.nil_append]
    rw [e]
    simp only [parseValue]
    rw [if_neg (by decide), if_pos trivial, hsk, hp]
    rw [if_neg (by rw [hw, List.cons_append, List.head?_cons]; exact fun hh => ho.2.1 (Option.some.inj hh))]
    rfl

theorem list_all_some {ft : FloatText} {xs : List (Option Sc)} (h : ∀ x ∈ xs, ∃ s, x = some s ∧ PrintableSc ft s) :
    ∃ ys : List Sc, xs = ys.map some ∧ ∀ s ∈ ys, PrintableSc ft s := by
  induction xs with
  | nil => exact ⟨[], rfl, by simp⟩
  | cons x xs ih =>
    obtain ⟨ys, rfl, hy⟩ := ih (fun y hy => h y (List.mem_cons_of_mem _ hy))
    obtain ⟨s, rfl, hs⟩ := h x List.mem_cons_self
    exact ⟨s :: ys, rfl, by
      intro t ht
      rcases List.mem_cons.1 ht with rfl | ht
      · exact hs
      · exact hy t ht⟩

theorem printVal_list (ft : FloatText) (ys : List Sc) : printVal ft (.list (ys.map some)) = block ft ys := by
  simp only [printVal, block, List.map_map, Function.comp_def]

theorem printVal_arr (ft : FloatText) (ys : List Sc) : printVal ft (.arr ys) = block ft ys := rfl

/-- A configuration value comes back. -/
theorem parseValue_val (ft : FloatText) (v : Val) (hv : Printable ft v) (n : ℕ) (hn : (printVal ft v).length ≤ n) (r : List Char) (hr : Ends r) :
    parseValue ft n (printVal ft v ++ r) = some (toJson v, r) := by
  cases v with
  | sc s =>
    have : 1 ≤ (printSc ft s).length := List.length_pos_iff.2 (printSc_ne ft s hv)
    have hn : (printSc ft s).length ≤ n := hn
    obtain ⟨n, rfl⟩ : ∃ m, n = m + 1 := ⟨n - 1, by omega⟩
    exact parseValue_sc ft s hv (n + 1) (by omega) r hr
  | list xs =>
    obtain ⟨ys, rfl, hy⟩ := list_all_some hv
    rw [printVal_list] at hn ⊢
    rw [parseValue_block ft ys hy n hn]
    simp [toJson]
  | arr xs => exact parseValue_block ft xs hv n hn r
  | other k =>
    obtain ⟨n, rfl⟩ : ∃ m, n = m + 1 := ⟨n - 1, by simp [printVal] at hn; omega⟩
    rfl

theorem printVal_head (ft : FloatText) (v : Val) (hv : Printable ft v) : ∃ c u, printVal ft v = c :: u ∧ isWs c = false := by
  have hb : ∀ xs, ∃ c u, block ft xs = c :: u ∧ isWs c = false := by
    intro xs
    unfold block
    split_ifs
    · exact ⟨_, _, rfl, by decide⟩
    · exact ⟨_, _, rfl, by decide⟩
  cases v with
  | sc s =>
    obtain ⟨c, u, h, ho⟩ := printSc_head ft s hv
    exact ⟨c, u, h, ho.1⟩
  | list xs =>
    obtain ⟨ys, rfl, -⟩ := list_all_some hv
    rw [printVal_list]
    exact hb ys
  | arr xs => exact hb xs
  | other k => exact ⟨_, _, rfl, by decide⟩

/-! ### Objects -/

/-- One member. -/
def member (ft : FloatText) (kv : String × Val) : List Char := quote kv.1 ++ (':' :: ' ' :: printVal ft kv.2)

theorem parse_member (ft : FloatText) (kv : String × Val) (hv : Printable ft kv.2) (n : ℕ) (hn : (member ft kv).length ≤ n) (r : List Char) (hr : Ends r) :
    ∃ u w, member ft kv ++ r = '"' :: u ∧ parseStr u = some (kv.1, ':' :: w) ∧ parseValue ft n (skipWs w) = some (toJson kv.2, r) := by
  obtain ⟨u, hu, hp⟩ := parseStr_quote kv.1 (':' :: ' ' :: (printVal ft kv.2 ++ r))
  refine ⟨u, ' ' :: (printVal ft kv.2 ++ r), ?_, hp, ?_⟩
  · rw [← hu]
    simp only [member, List.append_assoc, List.cons_append]
  · obtain ⟨c, w, hc, hw⟩ := printVal_head ft kv.2 hv
    have : skipWs (' ' :: (printVal ft kv.2 ++ r)) = printVal ft kv.2 ++ r := by
      rw [hc, List.cons_append]
      exact skipWs_spaces 1 hw _
    rw [this]
    refine parseValue_val ft kv.2 hv n ?_ r hr
    simp only [member, List.length_append, List.length_cons] at hn
    omega

theorem member_head (ft : FloatText) (kv : String × Val) : ∃ u, member ft kv = '"' :: u := ⟨_, rfl⟩

/-- The members of an object come back. -/
theorem parseMembers_join (ft : FloatText) (k : ℕ) (kvs : List (String × Val)) (hx : ∀ kv ∈ kvs, Printable ft kv.2) (h0 : kvs ≠ []) (r : List Char) :
    ∀ n, (joinItems k (kvs.map (member ft))).length < n →
      parseMembers ft n (joinItems k (kvs.map (member ft)) ++ ('\n' :: '}' :: r)) = some (kvs.map fun kv => (kv.1, toJson kv.2), r) := by
  induction kvs with
  | nil => exact absurd rfl h0
  | cons x xs ih =>
    intro n hn
    obtain ⟨n, rfl⟩ : ∃ m, n = m + 1 := ⟨n - 1, by omega⟩
    have hxx := hx x List.mem_cons_self
    cases xs with
    | nil =>
      simp only [List.map_cons, List.map_nil, joinItems] at hn ⊢
      obtain ⟨u, w, h1, h2, h3⟩ := parse_member ft x hxx n (by omega) ('\n' :: '}' :: r) (ends_newline _)
      rw [h1]
      simp only [parseMembers, List.head?_cons, List.tail_cons]
      rw [if_pos trivial, h2]
      simp only
      rw [skipWs_cons (by decide), List.head?_cons, if_pos rfl, List.tail_cons, h3]
      simp only
      rw [show skipWs ('\n' :: '}' :: r) = '}' :: r from skipWs_newline 0 (by decide) r, List.head?_cons, if_pos rfl]
      rfl
    | cons y ys =>
      simp only [List.map_cons, joinItems, List.append_assoc, List.cons_append, List.length_append, List.length_cons] at hn ⊢
      obtain ⟨u, w, h1, h2, h3⟩ := parse_member ft x hxx n (by omega)
        (',' :: '\n' :: (List.replicate k ' ' ++ (joinItems k (member ft y :: ys.map (member ft)) ++ ('\n' :: '}' :: r)))) (ends_comma _)
      rw [h1]
      simp only [parseMembers, List.head?_cons, List.tail_cons]
      rw [if_pos trivial, h2]
      simp only
      rw [skipWs_cons (c := ':') (by decide), List.head?_cons, if_pos rfl, List.tail_cons, h3]
      simp only
      rw [skipWs_cons (c := ',') (by decide), List.head?_cons, if_neg (by decide), if_pos rfl, List.tail_cons]
      have hj : ∃ w, joinItems k (member ft y :: ys.map (member ft)) = '"' :: w := by
        obtain ⟨u, hu⟩ := member_head ft y
        cases ys with
        | nil => exact ⟨u, by simp only [List.map_nil, joinItems]; exact hu⟩
        | cons z zs => exact ⟨_, by simp only [List.map_cons, joinItems, hu, List.cons_append]; rfl⟩
      obtain ⟨v, hv⟩ := hj
      have hsk : skipWs ('\n' :: (List.replicate k ' ' ++ (joinItems k (member ft y :: ys.map (member ft)) ++ '\n' :: '}' :: r))) =
          joinItems k (member ft y :: ys.map (member ft)) ++ '\n' :: '}' :: r := by
        rw [hv, List.cons_append]
        exact skipWs_newline k (by decide) _
      rw [hsk]
      have := ih (fun s hs => hx s (List.mem_cons_of_mem _ hs)) (by simp) n (by simp only [List.map_cons]; omega)
      rw [List.map_cons] at this
      rw [this]
      rfl

/-- The file that was written, as JSON value, possibly followed by other text. -/
theorem parseValue_saved (ft : FloatText) (d : Dict) (hd : ∀ kv ∈ d, Printable ft kv.2) (n : ℕ) (hn : (saveText ft d).length ≤ n) (r : List Char) :
    parseValue ft n (saveText ft d ++ r) = some (.obj ((d.foldr insertSorted []).map fun kv => (kv.1, toJson kv.2)), r) := by
  unfold saveText at hn ⊢
  by_cases h0 : d = []
  · subst h0
    rw [if_pos rfl] at hn ⊢
    obtain ⟨n, rfl⟩ : ∃ m, n = m + 1 := ⟨n - 1, by simp only [List.length_cons] at hn; omega⟩
    rfl
  · rw [if_neg h0] at hn ⊢
    have hne : d.foldr insertSorted [] ≠ [] := by
      obtain ⟨kv, hkv⟩ := List.exists_mem_of_ne_nil d h0
      exact List.ne_nil_of_mem ((sorted_mem d kv).2 hkv)
    have hpr : ∀ kv ∈ d.foldr insertSorted [], Printable ft kv.2 := fun kv hkv => hd kv ((sorted_mem d kv).1 hkv)
    generalize d.foldr insertSorted [] = kvs at *
    have e : (kvs.map fun kv => quote kv.1 ++ (':' :: ' ' :: printVal ft kv.2)) = kvs.map (member ft) := rfl
    rw [e] at hn ⊢
    simp only [List.length_cons, List.length_append] at hn
    obtain ⟨n, rfl⟩ : ∃ m, n = m + 1 := ⟨n - 1, by omega⟩
    have hp := parseMembers_join ft 4 kvs hpr hne r n (by omega)
    have e2 : '{' :: '\n' :: (List.replicate 4 ' ' ++ (joinItems 4 (kvs.map (member ft)) ++ ['\n', '}'])) ++ r =
        '{' :: ('\n' :: (List.replicate 4 ' ' ++ (joinItems 4 (kvs.map (member ft)) ++ ('\n' :: '}' :: r)))) := by
      simp only [List.cons_append, List.append_assoc, List.nil_append]
    rw [e2]
    have hj : ∃ w, joinItems 4 (kvs.map (member ft)) = '"' :: w := by
      match kvs, hne with
      | [y], _ => exact ⟨_, rfl⟩
      | y :: z :: zs, _ =>
        obtain ⟨u, hu⟩ := member_head ft y
        exact ⟨_, by simp only [List.map_cons, joinItems, hu, List.cons_append]; rfl⟩
    obtain ⟨v, hv⟩ := hj
    have hsk : skipWs ('\n' :: (List.replicate 4 ' ' ++ (joinItems 4 (kvs.map (member ft)) ++ ('\n' :: '}' :: r)))) =
        joinItems 4 (kvs.map (member ft)) ++ ('\n' :: '}' :: r) := by
      rw [hv, List.cons_append]
      exact skipWs_newline 4 (by decide) _
    simp only [parseValue]
    rw [if_neg (by decide), if_neg (by decide), if_pos trivial, hsk, hp, if_neg (by rw [hv, List.cons_append, List.head?_cons]; decide)]
    rfl

theorem saveText_head (ft : FloatText) (d : Dict) : ∃ u, saveText ft d = '{' :: u := by
  unfold saveText
  split_ifs
  · exact ⟨_, rfl⟩
  · exact ⟨_, rfl⟩

theorem parseText_saved (ft : FloatText) (d : Dict) (hd : ∀ kv ∈ d, Printable ft kv.2) :
    parseText ft (saveText ft d) = some (.obj ((d.foldr insertSorted []).map fun kv => (kv.1, toJson kv.2))) := by
  obtain ⟨u, hu⟩ := saveText_head ft d
  have hsk : skipWs (saveText ft d) = saveText ft d := by
    rw [hu]
    exact skipWs_cons (by decide) _
  have := parseValue_saved ft d hd ((saveText ft d).length + 1) (by omega) []
  rw [List.append_nil] at this
  unfold parseText
  rw [hsk, this]
  rfl

theorem toVal_toJson (ft : FloatText) (v : Val) (hv : Printable ft v) : toVal (toJson v) = jsonTrip v := by
  cases v with
  | sc s => rfl
  | list xs =>
    obtain ⟨ys, rfl, -⟩ := list_all_some hv
    simp [toJson, toVal, jsonTrip, List.map_map, Function.comp_def]
  | arr xs => simp [toJson, toVal, jsonTrip, List.map_map, Function.comp_def]
  | other k => rfl

theorem set_new (d : Dict) (k : String) (v : Val) (h : k ∉ d.map Prod.fst) : d.set k v = d ++ [(k, v)] := by
  induction d with
  | nil => rfl
  | cons e d ih =>
    obtain ⟨k', v'⟩ := e
    simp only [List.map_cons, List.mem_cons, not_or] at h
    simp only [Dict.set]
    rw [if_neg (fun hh => h.1 hh.symm), ih h.2]
    rfl

theorem dictOf_nodup (kvs : List (String × Json)) (h : (kvs.map Prod.fst).Nodup) : dictOf kvs = kvs.map fun kv => (kv.1, toVal kv.2) := by
  have : ∀ (kvs : List (String × Json)) (d : Dict), (d.map Prod.fst ++ kvs.map Prod.fst).Nodup →
      kvs.foldl (fun d kv => d.set kv.1 (toVal kv.2)) d = d ++ kvs.map fun kv => (kv.1, toVal kv.2) := by
    intro kvs
    induction kvs with
    | nil => intro d _; simp
    | cons kv kvs ih =>
      intro d hd
      rw [List.foldl_cons, set_new d kv.1 (toVal kv.2) (by
        intro hk
        rw [List.nodup_append] at hd
        exact hd.2.2 _ hk _ (by simp) rfl), ih _ (by
          simpa [List.map_append, List.append_assoc] using hd)]
      simp
  have h' := this kvs [] (by simpa using h)
  simpa [dictOf] using h'

end ChaosMagPy.ConfigText
