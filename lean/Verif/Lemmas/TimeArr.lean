import Verif.Model.TimeArr
import Verif.Lemmas.ElemArr
import Verif.Lemmas.ShcText
import Verif.Props.Layers
import Verif.Lemmas.ConfigTextTrip
/-! Date strings and array expressions of the time functions. -/
namespace ChaosMagPy.TimeArr
open ChaosMagPy.Time ChaosMagPy.NumPy
open ChaosMagPy.Shc (natVal isDigit intStr natStr natStr_spec)

theorem natStr_length (n k : ℕ) (hk : 1 ≤ k) : (natStr n).length ≤ k ↔ n < 10 ^ k := by
  unfold natStr
  split_ifs with h
  · subst h
    simp [hk]
  · rw [List.length_reverse, List.length_map]
    exact (Nat.digits_length_le_iff (b := 10) (by norm_num) n)

theorem natVal_zero (s : List Char) : natVal ('0' :: s) = natVal s := by
  simp [natVal]

theorem natStr_all (n : ℕ) : (natStr n).all isDigit = true := List.all_eq_true.2 (natStr_spec n).2.1

theorem natStr_length_pos (n : ℕ) : 1 ≤ (natStr n).length := List.length_pos_of_ne_nil (natStr_spec n).2.2

/-- Zero-filled non-negative integer. -/
theorem zfill2_nat (n : ℕ) : ∃ s, zfill2 (natStr n) = s ∧ s.all isDigit = true ∧ natVal s = n ∧ 2 ≤ s.length ∧ (s.length ≤ 2 ↔ n < 100) := by
  obtain ⟨h1, h2, h3⟩ := natStr_spec n
  obtain ⟨c, w, hc, hd⟩ := ConfigText.natStr_cons n
  have hne : c ≠ '-' := by rintro rfl; exact absurd hd (by decide)
  have e : zfill2 (natStr n) = List.replicate (2 - (natStr n).length) '0' ++ natStr n := by
    rw [hc]
    unfold zfill2
    split
    · rename_i t ht
      exact absurd (List.cons.inj ht).1 hne
    · rfl
  have hl := natStr_length n 2 (by norm_num)
  have hp := natStr_length_pos n
  refine ⟨_, e, ?_, ?_, ?_, ?_⟩
  · rw [List.all_append, natStr_all, Bool.and_true, List.all_eq_true]
    intro x hx
    rw [List.eq_of_mem_replicate hx]
    rfl
  · rcases (by omega : (natStr n).length = 1 ∨ 2 ≤ (natStr n).length) with h | h
    · rw [h]
      show natVal ('0' :: natStr n) = n
      rw [natVal_zero, h1]
    · rw [Nat.sub_eq_zero_of_le h]
      exact h1
  · rw [List.length_append, List.length_replicate]
    omega
  · rw [List.length_append, List.length_replicate]
    have : (10 : ℕ) ^ 2 = 100 := by norm_num
    omega

theorem zfill2_neg (n : ℕ) : ∃ t, zfill2 ('-' :: natStr n) = '-' :: t := ⟨_, rfl⟩

/-- The two digits that the parser reads from a zero-filled integer followed by `r`. -/
theorem two_digits (z : ℤ) (r : List Char) (hr : ∀ c t, r = c :: t → isDigit c = false) :
    ((z < 0 ∧ ¬ ((zfill2 (intStr z) ++ r).take 2).all isDigit) ∨
     (0 ≤ z ∧ ((zfill2 (intStr z) ++ r).take 2).length = 2 ∧ ((zfill2 (intStr z) ++ r).take 2).all isDigit = true ∧
       ((z < 100 ∧ (natVal ((zfill2 (intStr z) ++ r).take 2) : ℤ) = z ∧ (zfill2 (intStr z) ++ r).drop 2 = r) ∨
        (100 ≤ z ∧ ∃ c t, (zfill2 (intStr z) ++ r).drop 2 = c :: t ∧ isDigit c = true)))) := by
  rcases lt_or_ge z 0 with h | h
  · left
    refine ⟨h, ?_⟩
    unfold intStr
    rw [if_pos h]
    obtain ⟨t, ht⟩ := zfill2_neg z.natAbs
    rw [ht]
    have : isDigit '-' = false := by decide
    simp [this]
  · right
    unfold intStr
    rw [if_neg (not_lt.2 h)]
    obtain ⟨s, hs, s1, s2, s3, s4⟩ := zfill2_nat z.natAbs
    rw [hs]
    have ht : (s ++ r).take 2 = s.take 2 := List.take_append_of_le_length s3
    have hd : (s ++ r).drop 2 = s.drop 2 ++ r := List.drop_append_of_le_length s3
    rw [ht, hd]
    refine ⟨h, by rw [List.length_take]; omega, ?_, ?_⟩
    · rw [List.all_eq_true] at s1 ⊢
      exact fun x hx => s1 x (List.mem_of_mem_take hx)
    · rcases lt_or_ge z.natAbs 100 with h100 | h100
      · left
        have hl : s.length ≤ 2 := s4.2 h100
        rw [List.take_of_length_le hl, List.drop_of_length_le hl, s2]
        refine ⟨by omega, by omega, rfl⟩
      · right
        refine ⟨by omega, ?_⟩
        have hl : 2 < s.length := by
          by_contra hc
          exact absurd (s4.1 (not_lt.1 hc)) (by omega)
        obtain ⟨c, t, hc⟩ : ∃ c t, s.drop 2 = c :: t := by
          cases hh : s.drop 2 with
          | nil => rw [List.drop_eq_nil_iff] at hh; omega
          | cons c t => exact ⟨c, t, rfl⟩
        refine ⟨c, t ++ r, by rw [hc]; rfl, ?_⟩
        rw [List.all_eq_true] at s1
        exact s1 c (List.mem_of_mem_drop (by rw [hc]; exact List.mem_cons_self))

/-- The string that `mjd2000` builds from integers. -/
def dateStr (y m d : ℤ) : List Char := ((intStr y ++ ['-']) ++ zfill2 (intStr m) ++ ['-']) ++ zfill2 (intStr d)

theorem digit_ne_dash {c : Char} (h : isDigit c = true) : c ≠ '-' := by rintro rfl; exact absurd h (by decide)

/-- The parser reads every date that `mjd2000` writes. -/
theorem isoDate_dateStr (y m d : ℤ) : isoDate (dateStr y m d) = parseDate y m d := by
  have hdash : isDigit '-' = false := by decide
  obtain ⟨c, w, hc, hdc⟩ := ConfigText.natStr_cons y.natAbs
  have hhead : ∀ r, (intStr y ++ r).head? = some '-' ↔ y < 0 := by
    intro r
    unfold intStr
    split_ifs with h
    · simp [h]
    · rw [hc]
      simp [digit_ne_dash hdc, h]
  have htail : ∀ r, (if y < 0 then (intStr y ++ r).tail else intStr y ++ r) = natStr y.natAbs ++ r := by
    intro r
    by_cases h : y < 0
    · rw [if_pos h]
      unfold intStr
      rw [if_pos h]
      rfl
    · rw [if_neg h]
      unfold intStr
      rw [if_neg h]
  have hs : dateStr y m d = intStr y ++ ('-' :: (zfill2 (intStr m) ++ ('-' :: zfill2 (intStr d)))) := by
    unfold dateStr
    simp only [List.append_assoc, List.cons_append, List.nil_append]
  rw [hs]
  unfold isoDate
  simp only [hhead, htail]
  generalize hR : ('-' :: (zfill2 (intStr m) ++ ('-' :: zfill2 (intStr d)))) = R
  obtain ⟨n1, n2, n3⟩ := natStr_spec y.natAbs
  have l4 := natStr_length y.natAbs 4 (by norm_num)
  have l3 := natStr_length y.natAbs 3 (by norm_num)
  norm_num at l4 l3
  unfold parseDate
  by_cases hy : y.natAbs < 1000 ∨ 9999 < y.natAbs
  · rw [if_pos hy]
    rcases hy with hy | hy
    · -- fewer than four digits: a dash among the first four characters
      have hl : (natStr y.natAbs).length ≤ 3 := l3.2 hy
      rw [if_pos]
      right
      intro hall
      rw [List.all_eq_true] at hall
      have : '-' ∈ (natStr y.natAbs ++ R).take 4 := by
        rw [List.take_append, ← hR]
        apply List.mem_append_right
        obtain ⟨k, hk⟩ : ∃ k, 4 - (natStr y.natAbs).length = k + 1 := ⟨3 - (natStr y.natAbs).length, by omega⟩
        rw [hk, List.take_succ_cons]
        exact List.mem_cons_self
      have := hall _ this
      rw [hdash] at this
      cases this
    · have hl : 4 < (natStr y.natAbs).length := by
        by_contra hcc
        have := l4.1 (not_lt.1 hcc)
        omega
      split_ifs with hg
      · rfl
      all_goals
        have hd : (natStr y.natAbs ++ R).drop 4 = (natStr y.natAbs).drop 4 ++ R := List.drop_append_of_le_length hl.le
        obtain ⟨c', t', hc'⟩ : ∃ c t, (natStr y.natAbs).drop 4 = c :: t := by
          cases hh : (natStr y.natAbs).drop 4 with
          | nil => rw [List.drop_eq_nil_iff] at hh; omega
          | cons c t => exact ⟨c, t, rfl⟩
        have hdig := n2 c' (List.mem_of_mem_drop (by rw [hc']; exact List.mem_cons_self))
        rw [hd, hc']
        simp only [List.cons_append]
        rw [if_pos (digit_ne_dash hdig)]
  · rw [if_neg hy]
    have hl : (natStr y.natAbs).length = 4 := by
      have a := l4.2 (by omega)
      have b : ¬ (natStr y.natAbs).length ≤ 3 := fun k => by have := l3.1 k; omega
      omega
    have ht : (natStr y.natAbs ++ R).take 4 = natStr y.natAbs := by rw [List.take_append_of_le_length hl.ge, List.take_of_length_le hl.le]
    have hd : (natStr y.natAbs ++ R).drop 4 = R := by
      rw [List.drop_append_of_le_length hl.ge, List.drop_of_length_le hl.le]
      rfl
    rw [ht, hd, n1, natStr_all, hl]
    rw [if_neg (by simp)]
    have hyear : (if y < 0 then -((y.natAbs : ℕ) : ℤ) else ((y.natAbs : ℕ) : ℤ)) = y := by split_ifs <;> omega
    rw [hyear, ← hR]
    simp only [ne_eq, not_true_eq_false, if_false]
    rcases two_digits m ('-' :: zfill2 (intStr d)) (fun c t h => by rw [← (List.cons.inj h).1]; exact hdash) with ⟨hm, ha⟩ | ⟨hm, hml, ha, hcase⟩
    · rw [if_pos (Or.inr ha), if_pos (Or.inl (by omega))]
    · rw [if_neg (by rw [hml, ha]; simp)]
      rcases hcase with ⟨h100, hv, hdrop⟩ | ⟨h100, c', t', hdrop, hdig⟩
      · rw [hdrop]
        simp only [not_true_eq_false, if_false]
        have hmn : natVal (List.take 2 (zfill2 (intStr m) ++ '-' :: zfill2 (intStr d))) = m.toNat := by omega
        rw [hmn]
        by_cases hmr : m < 1 ∨ 12 < m
        · rw [if_pos (by omega), if_pos hmr]
        · rw [if_neg (by omega), if_neg hmr]
          have td := two_digits d [] (fun c t h => nomatch h)
          rw [List.append_nil] at td
          rcases td with ⟨hdn, ha2⟩ | ⟨hdn, hdl, ha2, hcase2⟩
          · rw [if_pos (Or.inr ha2), if_pos (Or.inl (by omega))]
          · rw [if_neg (by rw [hdl, ha2]; simp)]
            rcases hcase2 with ⟨d100, dv, ddrop⟩ | ⟨d100, c2, t2, ddrop, ddig⟩
            · have hdv : natVal (List.take 2 (zfill2 (intStr d))) = d.toNat := by omega
              rw [ddrop, hdv]
              have e : ((d.toNat : ℕ) : ℤ) = d := by omega
              rw [e]
              by_cases hdr : d < 1 ∨ (npMonthLengths (npIsLeap y)).getD (m.toNat - 1) 0 < d
              · rw [if_pos hdr, if_pos (by omega)]
              · rw [if_neg hdr, if_neg (by omega), if_neg (by simp)]
            · have hbig : ∀ z ∈ npMonthLengths (npIsLeap y), z ≤ 31 := by
                unfold npMonthLengths
                cases npIsLeap y <;> decide
              have hget : (npMonthLengths (npIsLeap y)).getD (m.toNat - 1) 0 ≤ 31 := by
                rw [List.getD_eq_getElem?_getD]
                cases hg : (npMonthLengths (npIsLeap y))[m.toNat - 1]? with
                | none => simp
                | some v => exact hbig v (List.mem_of_getElem? hg)
              rw [if_pos (Or.inr (by omega : (npMonthLengths (npIsLeap y)).getD (m.toNat - 1) 0 < d))]
              split_ifs with h1 h2
              · rfl
              · rw [ddrop] at h2
                cases h2
              · rfl
      · rw [if_pos (Or.inr (by omega : 12 < m))]
        split_ifs with h1
        · rfl
        · rw [hdrop]
          simp only [digit_ne_dash hdig, not_false_eq_true, if_true]

/-- The computation raises ValueError if the shapes do not fit together; else it gives an array of the broadcast shape with the value `f i` where `V i`. -/
def El {α : Type} (V : List ℕ → Prop) (l : List (List ℕ)) (x : Except Err (Arr α)) (f : List ℕ → α) : Prop :=
  (∀ G, broadcast l = some G → ∃ a, x = .ok a ∧ a.shape = G ∧ ∀ i, V i → a.at i = f i) ∧ (broadcast l = none → x = .error .valueError)

theorem El.arr {α : Type} {V : List ℕ → Prop} (a : Arr α) (f : List ℕ → α) (h : ∀ i, V i → a.at i = f i) : El V [a.shape] (.ok a) f := by
  refine ⟨fun G hG => ⟨a, rfl, ?_, h⟩, fun hn => ?_⟩
  · rw [ElemArr.broadcast_single] at hG
    cases hG
    rfl
  · rw [ElemArr.broadcast_single] at hn
    cases hn

theorem El.op2 {α β γ : Type} {V : List ℕ → Prop} {l : List (List ℕ)} {x : Except Err (Arr α)} {f : List ℕ → α} (op : α → β → γ) (hx : El V l x f)
    (b : Arr β) : El V (l ++ [b.shape]) (x >>= fun a => op2 op a b) fun i => op (f i) (b.at i) := by
  have hb := ElemArr.broadcast_append l [b.shape]
  cases h1 : broadcast l with
  | none =>
    rw [h1] at hb
    refine ⟨fun G hG => ?_, fun _ => ?_⟩
    · rw [hb] at hG; cases hG
    · rw [hx.2 h1]; rfl
  | some r =>
    obtain ⟨a, ha, hs, hv⟩ := hx.1 r h1
    rw [h1, ElemArr.broadcast_single] at hb
    replace hb : broadcast (l ++ [b.shape]) = bcast r b.shape := hb
    have hl : (x >>= fun a => TimeArr.op2 op a b) = TimeArr.op2 op a b := by rw [ha]; rfl
    refine ⟨fun G hG => ?_, fun hn => ?_⟩
    · rw [hG] at hb
      obtain ⟨i1, i2⟩ := bcast_into hb.symm
      obtain ⟨c, hc, -, hcv⟩ := map2_into op a b G (by rw [hs]; exact i1) i2
      refine ⟨c, by rw [hl, TimeArr.op2, hc]; rfl, ?_, fun i hi => by rw [hcv, hv i hi]⟩
      unfold map2 at hc
      rw [hs, ← hb] at hc
      cases hc
      rfl
    · rw [hl, TimeArr.op2]
      unfold map2
      rw [hs, ← hb, hn]
      rfl

theorem El.map {α β : Type} {V : List ℕ → Prop} {l : List (List ℕ)} {x : Except Err (Arr α)} {f : List ℕ → α} (p : α → β) (hx : El V l x f) :
    El V l (x >>= fun a => pure (a.map p)) fun i => p (f i) := by
  refine ⟨fun G hG => ?_, fun hn => by rw [hx.2 hn]; rfl⟩
  obtain ⟨a, h1, h2, h3⟩ := hx.1 G hG
  refine ⟨a.map p, by rw [h1]; rfl, h2, fun i hi => ?_⟩
  show p (a.at i) = p (f i)
  rw [h3 i hi]

theorem El.src {α : Type} {V : List ℕ → Prop} {l l' : List (List ℕ)} {x : Except Err (Arr α)} {f : List ℕ → α} (hx : El V l x f)
    (h : broadcast l = broadcast l') : El V l' x f := ⟨fun G hG => hx.1 G (h.trans hG), fun hn => hx.2 (h.trans hn)⟩

/-- Parsing of an array of strings. -/
theorem parseAll_ok (a : Arr (List Char)) (h : ∀ i, Valid a.shape i → ∃ t, isoNs (a.get i) = .ok t) :
    ∃ b, parseAll a = .ok b ∧ b.shape = a.shape ∧ ∀ i, Valid a.shape i → isoNs (a.get i) = .ok (b.get i) := by
  have hm : ∃ l, a.data.mapM isoNs = .ok l := by
    cases hh : a.data.mapM isoNs with
    | ok l => exact ⟨l, rfl⟩
    | error e =>
      obtain ⟨s, hs, he⟩ := QResponse.mapM_error_ex hh
      obtain ⟨i, hi, rfl⟩ := List.mem_map.1 hs
      obtain ⟨t, ht⟩ := h i (mem_indices.1 hi)
      rw [ht] at he
      cases he
  obtain ⟨l, hl⟩ := hm
  refine ⟨_, by unfold parseAll; rw [hl], rfl, fun i hi => ?_⟩
  obtain ⟨t, ht⟩ := h i hi
  show isoNs (a.get i) = .ok (match isoNs (a.get i) with | .ok t => t | .error _ => 0)
  rw [ht]

theorem isoNs_error {s : List Char} {e : Err} (h : isoNs s = .error e) : e = .valueError := by
  unfold isoNs at h
  split at h
  · rename_i e' he
    cases h
    unfold isoDate at he
    simp only at he
    split_ifs at he <;> first | (cases he; rfl) | skip
    all_goals
      split at he
      · cases he
      · split_ifs at he <;> first | (cases he; rfl) | skip
        split at he
        · cases he
        · split_ifs at he <;> first | (cases he; rfl) | skip
  · cases h

theorem parseAll_error (a : Arr (List Char)) (i : List ℕ) (hi : Valid a.shape i) (h : ∀ t, isoNs (a.get i) ≠ .ok t) : parseAll a = .error .valueError := by
  unfold parseAll
  cases hh : a.data.mapM isoNs with
  | error e =>
    obtain ⟨s, hs, he⟩ := QResponse.mapM_error_ex hh
    rw [isoNs_error he]
  | ok l =>
    rw [Synth.mapM_ok] at hh
    obtain ⟨t, ht⟩ : ∃ t, isoNs (a.get i) = .ok t := by
      have hmem : a.get i ∈ a.data := List.mem_map_of_mem (mem_indices.2 hi)
      generalize a.get i = x at hmem
      generalize a.data = L at hh hmem
      clear h
      induction hh with
      | nil => cases hmem
      | cons hab _ ih =>
        rcases List.mem_cons.1 hmem with rfl | hmem
        · exact ⟨_, hab⟩
        · exact ih hmem
    exact (h t ht).elim

end ChaosMagPy.TimeArr
