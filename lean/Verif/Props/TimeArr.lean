import Verif.Lemmas.TimeArr
import Verif.Spec.TimeArr
import Verif.Props.Time
/-! # C80: time conversions of arrays, dates as character strings -/
namespace ChaosMagPy.TimeArr
open ChaosMagPy.Time ChaosMagPy.NumPy ChaosMagPy.Spec
open ChaosMagPy.Shc (natVal isDigit intStr natStr)

section
variable {K : Type} [Field K] [LinearOrder K] [IsStrictOrderedRing K]

theorem parseDate_good (y m d : ℤ) : (∃ t, parseDate y m d = .ok t) ↔ GoodDate y m d := by
  have h := C08_error_iff (K := ℚ) y m d 0 0 0 0 0
  unfold GoodDate
  constructor
  · rintro ⟨t, ht⟩
    by_contra hc
    have := h.2 hc
    unfold Time.mjd2000 at this
    rw [ht] at this
    cases this
  · intro hg
    cases hp : parseDate y m d with
    | ok t => exact ⟨t, rfl⟩
    | error e =>
      exfalso
      refine h.1 ?_ hg
      unfold Time.mjd2000
      rw [hp]
      unfold parseDate at hp
      split_ifs at hp <;> (cases hp; rfl)

/-- The ISO date string that the package writes for three integers: `year-month-day`, month and day with at least two digits. -/
theorem C80_date_string (y m d : ℤ) :
    ((∃ t, isoDate (((intStr y ++ ['-']) ++ zfill2 (intStr m) ++ ['-']) ++ zfill2 (intStr d)) = .ok t) ↔ GoodDate y m d) ∧
    ∀ t, isoDate (((intStr y ++ ['-']) ++ zfill2 (intStr m) ++ ['-']) ++ zfill2 (intStr d)) = .ok t → t.1 = y ∧ (t.2.1 : ℤ) = m ∧ (t.2.2 : ℤ) = d := by
  have h := isoDate_dateStr y m d
  unfold dateStr at h
  rw [h]
  refine ⟨parseDate_good y m d, fun t ht => ?_⟩
  obtain ⟨g1, g2, g3, g4, -⟩ := (parseDate_good y m d).1 ⟨t, ht⟩
  unfold parseDate at ht
  split_ifs at ht
  cases ht
  exact ⟨rfl, by show ((m.toNat : ℕ) : ℤ) = m; omega, by show ((d.toNat : ℕ) : ℤ) = d; omega⟩

/-- The call as a chain. -/
theorem mjd2000_chain (y m d h mi s us ns : Arr ℤ) : mjd2000 K (.ints y) m d h mi s us ns =
    ((((((((((.ok ((y.map intStr).map (· ++ ['-'])) : Except Err (Arr (List Char))) >>= fun a => op2 (· ++ ·) a ((m.map intStr).map zfill2)) >>=
      fun a => pure (a.map (· ++ ['-']))) >>= fun a => op2 (· ++ ·) a ((d.map intStr).map zfill2)) >>= parseAll) >>=
      fun a => op2 (fun t n => wrap64 (t + wrap64 (n * 3600000000000))) a h) >>= fun a => op2 (fun t n => wrap64 (t + wrap64 (n * 60000000000))) a mi) >>=
      fun a => op2 (fun t n => wrap64 (t + wrap64 (n * 1000000000))) a s) >>= fun a => op2 (fun t n => wrap64 (t + wrap64 (n * 1000))) a us) >>=
      fun a => op2 (fun t n => wrap64 (t + wrap64 n)) a ns) >>= fun a => pure (a.map (nsToMjd K)) := by
  unfold mjd2000
  simp only [bind_assoc, pure_bind]
  rfl

theorem strings_el (y m d : Arr ℤ) : El (fun _ => True) [y.shape, m.shape, d.shape]
    (((((.ok ((y.map intStr).map (· ++ ['-'])) : Except Err (Arr (List Char))) >>= fun a => op2 (· ++ ·) a ((m.map intStr).map zfill2)) >>=
      fun a => pure (a.map (· ++ ['-']))) >>= fun a => op2 (· ++ ·) a ((d.map intStr).map zfill2))) fun i => dateStr (y.at i) (m.at i) (d.at i) :=
  (((El.arr ((y.map intStr).map (· ++ ['-'])) (fun i => intStr (y.at i) ++ ['-']) fun _ _ => rfl).op2 (· ++ ·) ((m.map intStr).map zfill2)).map
    (· ++ ['-'])).op2 (· ++ ·) ((d.map intStr).map zfill2)

theorem isoNs_good (y m d : ℤ) : (∃ t, isoNs (dateStr y m d) = .ok t) ↔ GoodDate y m d := by
  rw [← parseDate_good, ← isoDate_dateStr]
  unfold isoNs
  cases isoDate (dateStr y m d) with
  | ok t => exact ⟨fun _ => ⟨t, rfl⟩, fun _ => ⟨_, rfl⟩⟩
  | error e => exact ⟨fun ⟨t, ht⟩ => (nomatch ht), fun ⟨t, ht⟩ => (nomatch ht)⟩

/-- The eight shapes. -/
theorem shapes_eq {y m d G3 : List ℕ} (h3 : broadcast [y, m, d] = some G3) (l : List (List ℕ)) : broadcast (G3 :: l) = broadcast (y :: m :: d :: l) := by
  rw [ElemArr.broadcast_iff] at h3
  apply ElemArr.broadcast_eq
  intro T
  constructor
  · intro k s hs
    rcases List.mem_cons.1 hs with rfl | hs
    · exact into_trans (h3.1 _ (by simp)) (k G3 (by simp))
    rcases List.mem_cons.1 hs with rfl | hs
    · exact into_trans (h3.1 _ (by simp)) (k G3 (by simp))
    rcases List.mem_cons.1 hs with rfl | hs
    · exact into_trans (h3.1 _ (by simp)) (k G3 (by simp))
    · exact k s (List.mem_cons_of_mem _ hs)
  · intro k s hs
    rcases List.mem_cons.1 hs with rfl | hs
    · refine h3.2 T fun t ht => k t ?_
      simp only [List.mem_cons, List.not_mem_nil, or_false] at ht ⊢
      tauto
    · exact k s (by simp [hs])

theorem mjd2000_core (y m d h mi s us ns : Arr ℤ) :
    (broadcast [y.shape, m.shape, d.shape] = none → mjd2000 K (.ints y) m d h mi s us ns = .error .valueError) ∧
    (∀ G3, broadcast [y.shape, m.shape, d.shape] = some G3 →
      ((∃ i, Valid G3 i ∧ ¬ GoodDate (y.at i) (m.at i) (d.at i)) → mjd2000 K (.ints y) m d h mi s us ns = .error .valueError) ∧
      ((∀ i, Valid G3 i → GoodDate (y.at i) (m.at i) (d.at i)) →
        (broadcast [y.shape, m.shape, d.shape, h.shape, mi.shape, s.shape, us.shape, ns.shape] = none →
          mjd2000 K (.ints y) m d h mi s us ns = .error .valueError) ∧
        ∀ G, broadcast [y.shape, m.shape, d.shape, h.shape, mi.shape, s.shape, us.shape, ns.shape] = some G →
          ∃ a, mjd2000 K (.ints y) m d h mi s us ns = .ok a ∧ a.shape = G ∧ ∀ i, Valid G i →
            Time.mjd2000 K (y.at i) (m.at i) (d.at i) (h.at i) (mi.at i) (s.at i) (us.at i) (ns.at i) = .ok (a.get i))) := by
  have hS := strings_el y m d
  rw [mjd2000_chain]
  refine ⟨fun hn => ?_, fun G3 hG3 => ?_⟩
  · rw [hS.2 hn]
    rfl
  · obtain ⟨a0, e0, s0, v0⟩ := hS.1 G3 hG3
    rw [e0]
    have hget : ∀ i, Valid G3 i → a0.get i = dateStr (y.at i) (m.at i) (d.at i) := fun i hi => by
      rw [← at_valid a0 i (by rw [s0]; exact hi), v0 i trivial]
    refine ⟨fun ⟨i, hi, hb⟩ => ?_, fun hg => ?_⟩
    · have : parseAll a0 = .error .valueError := parseAll_error a0 i (by rw [s0]; exact hi) fun t ht => hb ((isoNs_good _ _ _).1 ⟨t, by rw [← hget i hi]; exact ht⟩)
      simp only [bind, Except.bind]
      rw [this]
    · obtain ⟨b, hb, bs, bv⟩ := parseAll_ok a0 fun i hi => by
        rw [s0] at hi
        rw [hget i hi]
        exact (isoNs_good _ _ _).2 (hg i hi)
      rw [s0] at bs bv
      have hchain : ((Except.ok a0 : Except Err (Arr (List Char))) >>= parseAll) = .ok b := hb
      rw [hchain, ← shapes_eq hG3]
      have E : El (fun _ => True) [G3, h.shape, mi.shape, s.shape, us.shape, ns.shape] _ _ :=
        (((((((El.arr (V := fun _ => True) b (fun i => b.at i) fun _ _ => rfl).src (l' := [G3]) (by rw [bs])).op2
          (fun t n => wrap64 (t + wrap64 (n * 3600000000000))) h).op2 (fun t n => wrap64 (t + wrap64 (n * 60000000000))) mi).op2
          (fun t n => wrap64 (t + wrap64 (n * 1000000000))) s).op2 (fun t n => wrap64 (t + wrap64 (n * 1000))) us).op2
          (fun t n => wrap64 (t + wrap64 n)) ns).map (nsToMjd K)
      refine ⟨fun hn => E.2 hn, fun G hG => ?_⟩
      obtain ⟨a, ha, hs, hv⟩ := E.1 G hG
      refine ⟨a, ha, hs, fun i hi => ?_⟩
      rw [← at_valid a i (by rw [hs]; exact hi), hv i trivial]
      have hinto : Into G3 G := broadcast_into hG G3 (by simp)
      have hpv := proj_isValid hinto hi
      have hbi := bv _ hpv
      rw [hget _ hpv] at hbi
      have i1 := (broadcast_into hG3) y.shape (by simp)
      have i2 := (broadcast_into hG3) m.shape (by simp)
      have i3 := (broadcast_into hG3) d.shape (by simp)
      rw [at_proj y i1, at_proj m i2, at_proj d i3] at hbi
      have hba : b.at i = b.get (proj G3 i) := by unfold Arr.at; rw [bs]
      rw [← hba] at hbi
      unfold isoNs at hbi
      rw [isoDate_dateStr] at hbi
      unfold Time.mjd2000
      cases hp : parseDate (y.at i) (m.at i) (d.at i) with
      | error e => rw [hp] at hbi; cases hbi
      | ok t =>
        rw [hp] at hbi
        have := Except.ok.inj hbi
        beta_reduce
        rw [← this]

/-- **C80, dates of arrays.** -/
theorem C80_mjd2000 (y m d h mi s us ns : Arr ℤ) (r : Except Err (Arr K)) (hr : mjd2000 K (.ints y) m d h mi s us ns = r) :
    -- success: the shapes fit together and all dates exist
    ((∃ a, r = .ok a) ↔ broadcast [y.shape, m.shape, d.shape, h.shape, mi.shape, s.shape, us.shape, ns.shape] ≠ none ∧
      ∀ G, broadcast [y.shape, m.shape, d.shape] = some G → ∀ i, Valid G i → GoodDate (y.at i) (m.at i) (d.at i)) ∧
    -- the array of the broadcast shape with the dates of all elements
    (∀ a, r = .ok a → broadcast [y.shape, m.shape, d.shape, h.shape, mi.shape, s.shape, us.shape, ns.shape] = some a.shape ∧
      ∀ i, Valid a.shape i → Time.mjd2000 K (y.at i) (m.at i) (d.at i) (h.at i) (mi.at i) (s.at i) (us.at i) (ns.at i) = .ok (a.get i)) ∧
    (∀ e, r = .error e → e = .valueError) := by
  subst hr
  obtain ⟨c1, c2⟩ := mjd2000_core (K := K) y m d h mi s us ns
  cases h3 : broadcast [y.shape, m.shape, d.shape] with
  | none =>
    have h8 : broadcast [y.shape, m.shape, d.shape, h.shape, mi.shape, s.shape, us.shape, ns.shape] = none := by
      rw [ElemArr.broadcast_none] at h3 ⊢
      intro T hT
      refine h3 T fun t ht => hT t ?_
      simp only [List.mem_cons, List.not_mem_nil, or_false] at ht ⊢
      tauto
    rw [c1 h3, h8]
    refine ⟨⟨fun ⟨a, ha⟩ => (nomatch ha), fun ⟨ha, _⟩ => absurd rfl ha⟩, fun a ha => (nomatch ha), fun e he => ?_⟩
    cases he
    rfl
  | some G3 =>
    obtain ⟨d1, d2⟩ := c2 G3 h3
    by_cases hg : ∀ i, Valid G3 i → GoodDate (y.at i) (m.at i) (d.at i)
    · obtain ⟨e1, e2⟩ := d2 hg
      cases h8 : broadcast [y.shape, m.shape, d.shape, h.shape, mi.shape, s.shape, us.shape, ns.shape] with
      | none =>
        rw [e1 h8]
        refine ⟨⟨fun ⟨a, ha⟩ => (nomatch ha), fun ⟨ha, _⟩ => absurd rfl ha⟩, fun a ha => (nomatch ha), fun e he => ?_⟩
        cases he
        rfl
      | some G =>
        obtain ⟨a, ha, hs, hv⟩ := e2 G h8
        rw [ha]
        refine ⟨⟨fun _ => ⟨by simp, fun G' hG' => ?_⟩, fun _ => ⟨a, rfl⟩⟩, fun a' ha' => ?_, fun e he => (nomatch he)⟩
        · cases hG'
          exact hg
        · cases ha'
          rw [hs]
          exact ⟨rfl, hv⟩
    · have he := d1 (by push Not at hg; exact hg)
      rw [he]
      refine ⟨⟨fun ⟨a, ha⟩ => (nomatch ha), fun ⟨_, ha⟩ => absurd (ha G3 rfl) hg⟩, fun a ha => (nomatch ha), fun e he => ?_⟩
      cases he
      rfl

theorem op2_same {α β γ : Type} (f : α → β → γ) (a : Arr α) (b : Arr β) (h : b.shape = a.shape) :
    ∃ c, op2 f a b = .ok c ∧ c.shape = a.shape ∧ ∀ i, Valid a.shape i → c.get i = f (a.get i) (b.get i) := by
  have hb : bcast a.shape b.shape = some a.shape := by rw [h]; exact bcast_self (into_refl _)
  refine ⟨⟨a.shape, fun i => f (a.at i) (b.at i)⟩, by unfold op2 map2; rw [hb]; rfl, rfl, fun i hi => ?_⟩
  show f (a.at i) (b.at i) = _
  rw [at_valid a i hi, at_valid b i (by rw [h]; exact hi)]

/-- January 1 of years. -/
theorem jan1_arr (Y : Arr ℤ) : ElementByElement Y.shape (fun i => Time.mjd2000 K (Y.get i))
    (mjd2000 K (.ints Y) (scalar 1) (scalar 1) (scalar 0) (scalar 0) (scalar 0) (scalar 0) (scalar 0)) := by
  have h8 : broadcast [Y.shape, (scalar (1 : ℤ)).shape, (scalar (1 : ℤ)).shape, (scalar (0 : ℤ)).shape, (scalar (0 : ℤ)).shape, (scalar (0 : ℤ)).shape,
      (scalar (0 : ℤ)).shape, (scalar (0 : ℤ)).shape] = some Y.shape := by
    rw [← ElemArr.broadcast_single Y.shape]
    apply ElemArr.broadcast_drop <;> simp [scalar]
  have h3 : broadcast [Y.shape, (scalar (1 : ℤ)).shape, (scalar (1 : ℤ)).shape] = some Y.shape := by
    rw [← ElemArr.broadcast_single Y.shape]
    apply ElemArr.broadcast_drop <;> simp [scalar]
  obtain ⟨c1, c2, c3⟩ := C80_mjd2000 (K := K) Y (scalar 1) (scalar 1) (scalar 0) (scalar 0) (scalar 0) (scalar 0) (scalar 0) _ rfl
  rw [h8] at c1
  have hok : ∀ i, Valid Y.shape i → (GoodDate (Y.at i) ((scalar (1 : ℤ)).at i) ((scalar (1 : ℤ)).at i) ↔ ∃ x, Time.mjd2000 K (Y.get i) = .ok x) := by
    intro i hi
    rw [at_valid Y i hi]
    have := C08_error_iff (K := K) (Y.get i) 1 1 0 0 0 0 0
    constructor
    · intro hg
      cases hm : Time.mjd2000 K (Y.get i) with
      | ok x => exact ⟨x, rfl⟩
      | error e =>
        have he : e = .valueError := by
          unfold Time.mjd2000 at hm
          split at hm
          · rename_i e' hp
            cases hm
            unfold parseDate at hp
            split_ifs at hp <;> (cases hp; rfl)
          · cases hm
        subst he
        exact absurd hg (this.1 hm)
    · rintro ⟨x, hx⟩
      by_contra hc
      rw [this.2 hc] at hx
      cases hx
  refine ⟨?_, ?_, ?_⟩
  · rw [c1]
    constructor
    · rintro ⟨-, hg⟩ i hi
      exact (hok i hi).1 (hg _ h3 i hi)
    · intro hx
      refine ⟨by simp, fun G hG i hi => ?_⟩
      rw [h3] at hG
      cases hG
      exact (hok i hi).2 (hx i hi)
  · intro b hb
    obtain ⟨q1, q2⟩ := c2 b hb
    rw [h8] at q1
    have hs : b.shape = Y.shape := (Option.some.inj q1).symm
    refine ⟨hs, fun i hi => ?_⟩
    have := q2 i (by rw [hs]; exact hi)
    rw [at_valid Y i hi] at this
    exact this
  · intro e he
    have hv := c3 e he
    subst hv
    by_contra hc
    push Not at hc
    obtain ⟨b, hb⟩ := c1.2 ⟨by simp, fun G hG i hi => by
      rw [h3] at hG
      cases hG
      by_contra hb
      refine hc i hi ?_
      have := C08_error_iff (K := K) (Y.get i) 1 1 0 0 0 0 0
      refine this.2 ?_
      rw [at_valid Y i hi] at hb
      exact hb⟩
    rw [hb] at he
    cases he

theorem isLeapYear_ok (Y : Arr ℤ) : isLeapYear .int64 Y = .ok (Y.map isLeap) := rfl

end

section
variable {K : Type} [Field K] [LinearOrder K] [IsStrictOrderedRing K] [FloorRing K]

/-- **C80, leap years of arrays**: element by element for 64-bit integers, TypeError for all other types. -/
theorem C80_is_leap_year (t : DType) (Y : Arr ℤ) : isLeapYear t Y = (if t = .int64 then .ok (Y.map fun y => decide (Time.Spec.Leap y)) else .error .typeError) := by
  unfold isLeapYear
  cases t <;> simp only [DType.isSubInt, not_true_eq_false, not_false_eq_true, if_true, if_false, reduceCtorEq, Bool.false_eq_true]
  congr 2
  funext y
  exact Bool.eq_iff_iff.2 ((isLeap_iff y).trans (by simp))

/-- **C80, decimal years of arrays**: element by element. -/
theorem C80_dyear_to_mjd (leap : Option Bool) (time : Arr K) :
    ElementByElement time.shape (fun i => Time.dyearToMjd (leap.getD true) (time.get i)) (dyearToMjd leap time) := by
  unfold dyearToMjd Time.dyearToMjd
  cases hl : leap.getD true with
  | false =>
    simp only [Bool.false_eq_true, if_false]
    refine ⟨⟨fun _ i _ => ⟨_, rfl⟩, fun _ => ⟨_, rfl⟩⟩, fun b hb => ?_, fun e he => (nomatch he)⟩
    cases hb
    exact ⟨rfl, fun i hi => rfl⟩
  | true =>
    simp only [if_true]
    set Y : Arr ℤ := time.map fun t => ⌊t⌋ with hY
    obtain ⟨j1, j2, j3⟩ := jan1_arr (K := K) Y
    rw [isLeapYear_ok]
    obtain ⟨days, d1, d2, d3⟩ := op2_same (fun (x1 x2 : K) => x1 * x2) (time.map fun t => Int.fract t) (daysPerYear K (Y.map isLeap)) rfl
    simp only [bind, Except.bind]
    rw [d1]
    simp only
    have hsh : Y.shape = time.shape := rfl
    rw [hsh] at j1 j2 j3
    cases hm : mjd2000 K (.ints Y) (scalar 1) (scalar 1) (scalar 0) (scalar 0) (scalar 0) (scalar 0) (scalar 0) with
    | ok M =>
      obtain ⟨m1, m2⟩ := j2 M hm
      obtain ⟨R, r1, r2, r3⟩ := op2_same (fun (x1 x2 : K) => x1 + x2) M days (by rw [d2, m1]; rfl)
      simp only
      rw [r1]
      have hval : ∀ i, Valid time.shape i → Time.mjd2000 K ⌊time.get i⌋ = .ok (M.get i) := m2
      refine ⟨⟨fun _ i hi => ?_, fun _ => ⟨_, rfl⟩⟩, fun b hb => ?_, fun e he => (nomatch he)⟩
      · beta_reduce
        rw [hval i hi]
        exact ⟨_, rfl⟩
      · cases hb
        refine ⟨r2.trans m1, fun i hi => ?_⟩
        beta_reduce
        rw [hval i hi, r3 i (by rw [m1]; exact hi), d3 i hi]
        rfl
    | error e =>
      obtain ⟨i, hi, he⟩ := j3 e hm
      have he' : Time.mjd2000 K ⌊time.get i⌋ = .error e := he
      refine ⟨⟨fun ⟨b, hb⟩ => (nomatch hb), fun hx => ?_⟩, fun b hb => (nomatch hb), fun e' h' => ?_⟩
      · obtain ⟨x, hx⟩ := hx i hi
        beta_reduce at hx
        rw [he'] at hx
        cases hx
      · cases h'
        refine ⟨i, hi, ?_⟩
        beta_reduce
        rw [he']

/-- **C80, dates of arrays to decimal years**: element by element. -/
theorem C80_mjd_to_dyear (leap : Option Bool) (time : Arr K) :
    ElementByElement time.shape (fun i => Time.mjdToDyear (leap.getD true) (time.get i)) (mjdToDyear leap time) := by
  unfold mjdToDyear Time.mjdToDyear
  cases hl : leap.getD true with
  | false =>
    simp only [Bool.false_eq_true, if_false]
    refine ⟨⟨fun _ i _ => ⟨_, rfl⟩, fun _ => ⟨_, rfl⟩⟩, fun b hb => ?_, fun e he => (nomatch he)⟩
    cases hb
    exact ⟨rfl, fun i hi => rfl⟩
  | true =>
    simp only [if_true]
    set Y : Arr ℤ := (time.map fun t => ⌊t⌋ + npDays 2000 1 1).map fun d => (npYearOfDays d - 1970) + 1970 with hY
    obtain ⟨j1, j2, j3⟩ := jan1_arr (K := K) Y
    rw [isLeapYear_ok]
    simp only [bind, Except.bind]
    have hsh : Y.shape = time.shape := rfl
    rw [hsh] at j1 j2 j3
    cases hm : mjd2000 K (.ints Y) (scalar 1) (scalar 1) (scalar 0) (scalar 0) (scalar 0) (scalar 0) (scalar 0) with
    | ok M =>
      obtain ⟨m1, m2⟩ := j2 M hm
      obtain ⟨days, d1, d2, d3⟩ := op2_same (fun (x1 x2 : K) => x1 - x2) time M m1
      obtain ⟨P, p1, p2, p3⟩ := op2_same (fun (x1 x2 : K) => x1 / x2) days (daysPerYear K (Y.map isLeap)) (by rw [d2]; rfl)
      obtain ⟨R, r1, r2, r3⟩ := op2_same (fun (y : ℤ) (p : K) => (y : K) + p) Y P (by rw [p2, d2]; rfl)
      simp only
      rw [d1]
      simp only
      rw [p1]
      simp only
      rw [r1]
      have hval : ∀ i, Valid time.shape i → Time.mjd2000 K ((npYearOfDays (⌊time.get i⌋ + npDays 2000 1 1) - 1970) + 1970) = .ok (M.get i) := m2
      refine ⟨⟨fun _ i hi => ?_, fun _ => ⟨_, rfl⟩⟩, fun b hb => ?_, fun e he => (nomatch he)⟩
      · beta_reduce
        rw [hval i hi]
        exact ⟨_, rfl⟩
      · cases hb
        refine ⟨r2, fun i hi => ?_⟩
        beta_reduce
        rw [hval i hi, r3 i hi, p3 i (by rw [d2]; exact hi), d3 i hi]
        rfl
    | error e =>
      obtain ⟨i, hi, he⟩ := j3 e hm
      have he' : Time.mjd2000 K ((npYearOfDays (⌊time.get i⌋ + npDays 2000 1 1) - 1970) + 1970) = .error e := he
      refine ⟨⟨fun ⟨b, hb⟩ => (nomatch hb), fun hx => ?_⟩, fun b hb => (nomatch hb), fun e' h' => ?_⟩
      · obtain ⟨x, hx⟩ := hx i hi
        beta_reduce at hx
        rw [he'] at hx
        cases hx
      · cases h'
        refine ⟨i, hi, ?_⟩
        beta_reduce
        rw [he']

/-- **C80, round trip of arrays**: decimal years to dates and back, for all arrays of years from 1708 to 2292. -/
theorem C80_dyear_roundtrip (leap : Option Bool) (time : Arr K) (h : ∀ i, Valid time.shape i → 1708 ≤ time.get i ∧ time.get i < 2292) :
    ∃ t, dyearToMjd leap time = .ok t ∧ t.shape = time.shape ∧ ∃ b, mjdToDyear leap t = .ok b ∧ b.shape = time.shape ∧ ∀ i, Valid time.shape i → b.get i = time.get i := by
  have hrt : ∀ i, Valid time.shape i → ∃ x, Time.dyearToMjd (leap.getD true) (time.get i) = .ok x ∧ Time.mjdToDyear (leap.getD true) x = .ok (time.get i) := by
    intro i hi
    cases hl : leap.getD true with
    | true => exact C09_dyear_roundtrip (time.get i) (h i hi)
    | false => exact (C09_no_leap_roundtrip (time.get i)).1
  obtain ⟨e1, e2, -⟩ := C80_dyear_to_mjd leap time
  obtain ⟨t, ht⟩ := e1.2 fun i hi => by
    obtain ⟨x, hx, -⟩ := hrt i hi
    exact ⟨x, hx⟩
  obtain ⟨s1, v1⟩ := e2 t ht
  obtain ⟨f1, f2, -⟩ := C80_mjd_to_dyear leap t
  have hback : ∀ i, Valid time.shape i → Time.mjdToDyear (leap.getD true) (t.get i) = .ok (time.get i) := by
    intro i hi
    obtain ⟨x, hx, hy⟩ := hrt i hi
    have hv : Time.dyearToMjd (leap.getD true) (time.get i) = .ok (t.get i) := v1 i hi
    rw [hv] at hx
    cases hx
    exact hy
  obtain ⟨b, hb⟩ := f1.2 fun i hi => ⟨_, hback i (by rw [← s1]; exact hi)⟩
  obtain ⟨s2, v2⟩ := f2 b hb
  refine ⟨t, ht, s1, b, hb, s2.trans s1, fun i hi => ?_⟩
  have : Time.mjdToDyear (leap.getD true) (t.get i) = .ok (b.get i) := v2 i (by rw [s1]; exact hi)
  rw [hback i hi] at this
  exact (Except.ok.inj this).symm

/-- **C80, time stamps of arrays**: element by element, and always successful. -/
theorem C80_timestamp (time : Arr K) : (timestamp time).shape = time.shape ∧ ∀ i, (timestamp time).get i = Time.timestamp (time.get i) := ⟨rfl, fun _ => rfl⟩

end

section
variable {K : Type} [Field K] [LinearOrder K] [IsStrictOrderedRing K]

/-- **C80, datetime objects**: an array of `datetime.datetime` has the dates of its components; the other arguments are ignored. -/
theorem C80_datetimes (a : Arr PyObj) (m d h mi s us ns : Arr ℤ) :
    ∃ b : Arr K, mjd2000 K (.objects a) m d h mi s us ns = .ok b ∧ b.shape = a.shape ∧
      ∀ i y mo dd hh mm ss uu, a.get i = .datetime y mo dd hh mm ss uu → 1000 ≤ y → y ≤ 9999 → Time.Spec.Date.Valid ⟨y, mo, dd⟩ →
        Time.mjd2000 K y mo dd hh mm ss uu 0 = .ok (b.get i) := by
  refine ⟨_, rfl, rfl, ?_⟩
  intro i y mo dd hh mm ss uu hi h1 h2 hv
  have e := mjd2000_eq (K := K) (d := ⟨y, mo, dd⟩) hv ⟨by simp only; omega, by simp only; omega⟩ hh mm ss uu 0
  refine e.trans ?_
  show _ = Except.ok (nsToMjd K (a.get i).toNs)
  rw [hi]
  congr 1
  unfold nsToMjd PyObj.toNs
  rw [epochNs, wrap64_sub]
  congr 3
  have e1 : npDays 2000 1 1 = dn Time.Spec.epoch := rfl
  have e2 : npDays y mo dd = dn ⟨y, mo, dd⟩ := rfl
  rw [e1, e2]
  unfold nsPerDay Time.Spec.dayNs Time.Spec.timeOfDay
  ring

/-- How many of the units of a `datetime64` are a day. -/
def perDay : DateUnit → ℤ
  | .D => 1
  | .h => 24
  | .m => 24 * 60
  | .s => 24 * 60 * 60
  | .ms => 24 * 60 * 60 * 1000
  | .us => 24 * 60 * 60 * 1000 * 1000
  | .ns => 24 * 60 * 60 * 1000 * 1000 * 1000

/-- **C80, `datetime64` arrays** of any unit: the exact dates (10957 days lie between 1970 and 2000) from 95794 days before to 106751 days after 1970, that is while
they and their differences to 2000 fit into 64 bits. -/
theorem C80_stamps (u : DateUnit) (a : Arr ℤ) (m d h mi s us ns : Arr ℤ) :
    ∃ b : Arr K, mjd2000 K (.stamps u a) m d h mi s us ns = .ok b ∧ b.shape = a.shape ∧
      ∀ i, -95794 * perDay u ≤ a.get i → a.get i ≤ 106751 * perDay u → b.get i = (a.get i : K) / (perDay u : K) - 10957 := by
  refine ⟨_, rfl, rfl, fun i h1 h2 => ?_⟩
  have hf : perDay u * u.factor = 86400000000000 := by cases u <;> rfl
  have hp : 0 < perDay u := by cases u <;> decide
  have hpos : 0 < u.factor := by cases u <;> decide
  have l1 : -8276601600000000000 ≤ a.get i * u.factor := by
    have := mul_le_mul_of_nonneg_right h1 hpos.le
    rw [mul_assoc, hf] at this
    omega
  have l2 : a.get i * u.factor ≤ 9223286400000000000 := by
    have := mul_le_mul_of_nonneg_right h2 hpos.le
    rw [mul_assoc, hf] at this
    omega
  show nsToMjd K (wrap64 (a.get i * u.factor)) = _
  unfold nsToMjd
  rw [wrap64_of_range (by omega) (show a.get i * u.factor < 2 ^ 63 by omega), epochNs_eq, wrap64_of_range (by omega) (by omega)]
  unfold nsPerDay
  have hf' : (perDay u : K) * (u.factor : K) = 86400000000000 := by exact_mod_cast congrArg (Int.cast (R := K)) hf
  have hp' : (perDay u : K) ≠ 0 := Int.cast_ne_zero.2 hp.ne'
  have hq : (u.factor : K) = 86400000000000 / (perDay u : K) := by
    rw [eq_div_iff hp', mul_comm]
    exact hf'
  push_cast
  rw [hq]
  field_simp
  ring

/-- **C80, instants of arrays**: time stamps of the dates of an array of instants (`datetime64[ns]`) are the instants. -/
theorem C80_instant_roundtrip [FloorRing K] (a m d h mi s us ns : Arr ℤ)
    (hr : ∀ i, Valid a.shape i → -2 ^ 63 + 946684800000000000 ≤ a.get i ∧ a.get i < 2 ^ 63) :
    ∃ b : Arr K, mjd2000 K (.stamps .ns a) m d h mi s us ns = .ok b ∧ (timestamp b).shape = a.shape ∧ ∀ i, Valid a.shape i → (timestamp b).get i = a.get i := by
  refine ⟨_, rfl, rfl, fun i hi => ?_⟩
  obtain ⟨h1, h2⟩ := hr i hi
  have e : wrap64 (a.get i * DateUnit.ns.factor) = a.get i := by
    rw [show DateUnit.ns.factor = 1 from rfl, mul_one]
    exact wrap64_of_range (by omega) h2
  show Time.timestamp (nsToMjd K (wrap64 (a.get i * DateUnit.ns.factor))) = _
  rw [e]
  exact C11_instant_roundtrip (K := K) (a.get i) ⟨by omega, h2⟩ (by omega)

/-- **C80, years as Python integers in an array of objects** are taken for nanoseconds since 1970: every year up to 9999 gives a date within
10 microseconds of January 1, 1970. -/
theorem C80_object_years (a : Arr PyObj) (m d h mi s us ns : Arr ℤ) :
    ∃ b : Arr K, mjd2000 K (.objects a) m d h mi s us ns = .ok b ∧ b.shape = a.shape ∧
      ∀ i y, a.get i = .int y → 0 ≤ y → y ≤ 9999 → -10957 ≤ b.get i ∧ b.get i ≤ -10957 + 1 / 8640000000 := by
  refine ⟨_, rfl, rfl, fun i y hi h1 h2 => ?_⟩
  show -10957 ≤ nsToMjd K (a.get i).toNs ∧ nsToMjd K (a.get i).toNs ≤ _
  rw [hi]
  unfold nsToMjd PyObj.toNs
  simp only
  rw [epochNs_eq, wrap64_of_range (by omega) (by omega)]
  unfold nsPerDay
  have k1 : (0 : K) ≤ (y : K) := by exact_mod_cast h1
  have k2 : (y : K) ≤ 9999 := by exact_mod_cast h2
  push_cast
  constructor
  · rw [le_div_iff₀ (by norm_num)]
    linarith
  · rw [div_le_iff₀ (by norm_num)]
    linarith

end

end ChaosMagPy.TimeArr
