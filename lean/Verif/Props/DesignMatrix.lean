import Verif.Props.BSpline
import Verif.Props.Synth
/-!
# C25: the design matrix of time-dependent models
-/
namespace ChaosMagPy.BSpline
open ChaosMagPy.Spec

theorem setBlock_apply (G : ℕ → Option ℝ) (lo n : ℕ) (v : ℕ → Option ℝ) (i : ℕ) :
    setBlock G lo n v i = if lo ≤ i ∧ i < lo + n then v (i - lo) else G i := rfl

/-- The blocks of the time-dependent coefficients. -/
theorem blocks_get (A : ℕ → ℝ) (coll : ℕ → Option ℝ) (nseg T : ℕ) :
    let s := (List.range T).foldl
      (fun (s : (ℕ → Option ℝ) × ℕ) coeff =>
        (setBlock s.1 s.2 nseg (fun k => (coll k).map fun v => A coeff * v), s.2 + nseg)) ((fun _ => none), 0)
    s.2 = T * nseg ∧ ∀ c j, c < T → j < nseg → s.1 (c * nseg + j) = (coll j).map fun v => A c * v := by
  induction T with
  | zero => simp
  | succ T ih =>
    rw [List.range_succ, List.foldl_append]
    simp only [List.foldl_cons, List.foldl_nil]
    simp only at ih
    obtain ⟨h1, h2⟩ := ih
    refine ⟨by rw [h1]; ring, ?_⟩
    intro c j hc hj
    rw [setBlock_apply, h1]
    rcases Nat.lt_or_ge c T with hlt | hge
    · rw [if_neg]
      · exact h2 c j hlt hj
      · rintro ⟨ha, _⟩
        have : c * nseg + nseg ≤ T * nseg := by
          calc c * nseg + nseg = (c + 1) * nseg := by ring
            _ ≤ T * nseg := Nat.mul_le_mul_right _ hlt
        omega
    · obtain rfl : c = T := by omega
      rw [if_pos ⟨by omega, by omega⟩]
      simp only [Nat.add_sub_cancel_left]

theorem designRow_get (nseg T S : ℕ) (hn : 0 < nseg) (hS : T ≤ S) (A : ℕ → ℝ) (coll : ℕ → Option ℝ) :
    (nseg - 1) * T + S = T * nseg + (S - T) ∧
    (∀ c j, c < T → j < nseg → designRow nseg T S A coll (c * nseg + j) = (coll j).map fun v => A c * v) ∧
    (∀ k, k < S - T → designRow nseg T S A coll (T * nseg + k) = some (A (T + k))) := by
  have htot : (nseg - 1) * T + S = T * nseg + (S - T) := by
    obtain ⟨m, rfl⟩ : ∃ m, nseg = m + 1 := ⟨nseg - 1, by omega⟩
    obtain ⟨r, rfl⟩ : ∃ r, S = T + r := ⟨S - T, by omega⟩
    simp only [Nat.add_sub_cancel, Nat.add_sub_cancel_left]
    ring
  have hb := blocks_get A coll nseg T
  simp only at hb
  obtain ⟨h1, h2⟩ := hb
  refine ⟨htot, ?_, ?_⟩
  · intro c j hc hj
    simp only [designRow]
    rw [setBlock_apply, h1, if_neg]
    · exact h2 c j hc hj
    · rintro ⟨ha, _⟩
      have : c * nseg + nseg ≤ T * nseg := by
        calc c * nseg + nseg = (c + 1) * nseg := by ring
          _ ≤ T * nseg := Nat.mul_le_mul_right _ hc
      omega
  · intro k hk
    simp only [designRow]
    rw [setBlock_apply, h1, htot, if_pos ⟨by omega, by omega⟩, Nat.add_sub_cancel_left]

/-- A sum over `T` blocks of `nseg` terms. -/
theorem sum_blocks (T nseg : ℕ) (f : ℕ → ℝ) :
    ∑ k ∈ Finset.range (T * nseg), f k = ∑ c ∈ Finset.range T, ∑ j ∈ Finset.range nseg, f (c * nseg + j) := by
  induction T with
  | zero => simp
  | succ T ih => rw [Nat.succ_mul, Finset.sum_range_add, ih, Finset.sum_range_succ]

/-- The row of the design matrix times a model vector. -/
theorem designRow_product (nseg T S : ℕ) (hn : 0 < nseg) (hS : T ≤ S) (A : ℕ → ℝ) (coll : ℕ → Option ℝ) (w : ℕ → ℝ)
    (hw : ∀ j, j < nseg → coll j = some (w j)) (m : ℕ → ℝ) :
    ∃ g : ℕ → ℝ, (∀ k, k < (nseg - 1) * T + S → designRow nseg T S A coll k = some (g k)) ∧
      ∑ k ∈ Finset.range ((nseg - 1) * T + S), g k * m k =
        ∑ c ∈ Finset.range S, A c * (if c < T then ∑ s ∈ Finset.range nseg, w s * m (c * nseg + s) else m (T * nseg + (c - T))) := by
  obtain ⟨htot, h1, h2⟩ := designRow_get nseg T S hn hS A coll
  have hval : ∀ k, k < T * nseg + (S - T) → ∃ v, designRow nseg T S A coll k = some v := by
    intro k hk
    rcases Nat.lt_or_ge k (T * nseg) with hlt | hge
    · have e : k = (k / nseg) * nseg + k % nseg := by rw [Nat.mul_comm]; exact (Nat.div_add_mod k nseg).symm
      have hj := Nat.mod_lt k hn
      rw [e, h1 _ _ ((Nat.div_lt_iff_lt_mul hn).2 hlt) hj, hw _ hj]
      exact ⟨_, rfl⟩
    · have e : k = T * nseg + (k - T * nseg) := by omega
      rw [e, h2 _ (by omega)]
      exact ⟨_, rfl⟩
  refine ⟨fun k => (designRow nseg T S A coll k).getD 0, ?_, ?_⟩
  · intro k hk
    rw [htot] at hk
    obtain ⟨v, hv⟩ := hval k hk
    simp only [hv, Option.getD_some]
  · rw [htot, Finset.sum_range_add, sum_blocks]
    obtain ⟨r, rfl⟩ : ∃ r, S = T + r := ⟨S - T, by omega⟩
    simp only [Nat.add_sub_cancel_left] at h2 ⊢
    rw [Finset.sum_range_add]
    congr 1
    · apply Finset.sum_congr rfl
      intro c hc
      rw [Finset.mem_range] at hc
      rw [if_pos hc, Finset.mul_sum]
      apply Finset.sum_congr rfl
      intro j hj
      rw [Finset.mem_range] at hj
      rw [h1 c j hc hj, hw j hj]
      simp only [Option.map_some, Option.getD_some]
      ring
    · apply Finset.sum_congr rfl
      intro k hk
      rw [Finset.mem_range] at hk
      rw [h2 k hk, if_neg (by omega), Nat.add_sub_cancel_left]
      rfl

theorem full_columns (n : ℕ) : Synth.designDim 1 n n = n * (n + 2) := by
  rcases Nat.eq_zero_or_pos n with rfl | hn
  · rfl
  have := Synth.C17_columns 1 n n hn le_rfl
  rw [show ((1 : ℕ) : ℤ) = 1 by rfl] at this
  rw [this]
  clear this hn
  have h : ∀ N, ∑ k ∈ Finset.Icc 1 N, (2 * k + 1) = N * (N + 2) := by
    intro N
    induction N with
    | zero => rfl
    | succ N ih =>
      rw [Finset.sum_Icc_succ_top (by omega), ih]
      ring
  rw [← h n]
  apply Finset.sum_congr rfl
  intro k hk
  rw [Finset.mem_Icc] at hk
  rw [min_eq_left hk.2]

/-- What a successful call went through. -/
theorem designMatrix_ok {rsurf : ℝ} {knots : List ℝ} {order ntdep : ℕ} {data : List Datum} {nstatic : Option ℕ}
    {source : Option String} {cols : ℕ} {rows : List ((ℕ → Option ℝ) × (ℕ → Option ℝ) × (ℕ → Option ℝ))}
    (hok : designMatrix rsurf knots order ntdep data nstatic source = .ok (cols, rows)) :
    ntdep ≤ nstatic.getD ntdep ∧ 0 < nstatic.getD ntdep ∧
    ∃ A, Synth.designGauss rsurf (data.map fun p => (p.radius, p.theta, p.phi)) (nstatic.getD ntdep : ℕ) none none (some (source.getD "internal")) =
        .ok (nstatic.getD ntdep * (nstatic.getD ntdep + 2), A) ∧
      cols = (knots.length - order - 1) * (ntdep * (ntdep + 2)) + nstatic.getD ntdep * (nstatic.getD ntdep + 2) ∧
      rows = List.zipWith (fun a c =>
        (designRow (knots.length - order) (ntdep * (ntdep + 2)) (nstatic.getD ntdep * (nstatic.getD ntdep + 2)) a.1 c,
         designRow (knots.length - order) (ntdep * (ntdep + 2)) (nstatic.getD ntdep * (nstatic.getD ntdep + 2)) a.2.1 c,
         designRow (knots.length - order) (ntdep * (ntdep + 2)) (nstatic.getD ntdep * (nstatic.getD ntdep + 2)) a.2.2 c)) A
        ((data.map Datum.time).map fun x => collocRow knots order 0 x) := by
  unfold designMatrix at hok
  simp only [bind, Except.bind] at hok
  cases h1 : Synth.aminmax (data.map Datum.theta) with
  | error e => rw [h1] at hok; cases hok
  | ok th =>
    rw [h1] at hok
    simp only at hok
    by_cases hth : th.1 > 0 ∧ th.2 < 180
    swap
    · rw [if_pos hth] at hok; cases hok
    rw [if_neg (not_not.2 hth)] at hok
    simp only [pure, Except.pure] at hok
    have hgood : ¬ (∃ n, nstatic = some n ∧ n ≠ 0 ∧ n < ntdep) := by
      rintro ⟨n, rfl, hc⟩
      simp only [if_pos hc] at hok
      cases hok
    cases h2 : Synth.designGauss rsurf (data.map fun p => (p.radius, p.theta, p.phi)) (nstatic.getD ntdep : ℕ) none none (some (source.getD "internal")) with
    | error e =>
      exfalso
      cases nstatic with
      | none => simp only [h2] at hok; cases hok
      | some n =>
        simp only [h2] at hok
        rw [if_neg (fun hc => hgood ⟨n, rfl, hc⟩)] at hok
        cases hok
    | ok r =>
      obtain ⟨dim, A⟩ := r
      have hok : cols = (knots.length - order - 1) * (ntdep * (ntdep + 2)) + nstatic.getD ntdep * (nstatic.getD ntdep + 2) ∧
          rows = List.zipWith (fun a c =>
          (designRow (knots.length - order) (ntdep * (ntdep + 2)) (nstatic.getD ntdep * (nstatic.getD ntdep + 2)) a.1 c,
           designRow (knots.length - order) (ntdep * (ntdep + 2)) (nstatic.getD ntdep * (nstatic.getD ntdep + 2)) a.2.1 c,
           designRow (knots.length - order) (ntdep * (ntdep + 2)) (nstatic.getD ntdep * (nstatic.getD ntdep + 2)) a.2.2 c)) A
          ((data.map Datum.time).map fun x => collocRow knots order 0 x) := by
        cases nstatic with
        | none =>
          simp only [h2, Except.ok.injEq, Prod.mk.injEq] at hok
          exact ⟨hok.1.symm, hok.2.symm⟩
        | some n =>
          simp only [h2] at hok
          rw [if_neg (fun hc => hgood ⟨n, rfl, hc⟩)] at hok
          simp only [Except.ok.injEq, Prod.mk.injEq] at hok
          exact ⟨hok.1.symm, hok.2.symm⟩
      have hpos : 0 < nstatic.getD ntdep := by
        by_contra hc
        unfold Synth.designGauss at h2
        simp only [bind, Except.bind] at h2
        cases h3 : Synth.checkColat ((data.map fun p => (p.radius, p.theta, p.phi)).map fun p => p.2.1) with
        | error e => rw [h3] at h2; cases h2
        | ok b =>
          rw [h3] at h2
          simp only at h2
          rw [if_pos (by omega)] at h2
          cases h2
      have hdim : dim = nstatic.getD ntdep * (nstatic.getD ntdep + 2) := by
        unfold Synth.designGauss at h2
        simp only [bind, Except.bind, Option.getD_none, pure, Except.pure] at h2
        repeat' split at h2
        all_goals first
          | cases h2; done
          | (simp only [Except.ok.injEq, Prod.mk.injEq] at h2
             rw [← h2.1, full_columns])
      refine ⟨?_, hpos, A, by rw [hdim], hok.1, hok.2⟩
      cases nstatic with
      | none => exact le_rfl
      | some n =>
        simp only [Option.getD_some] at hpos ⊢
        by_contra hc
        exact hgood ⟨n, rfl, by omega, by omega⟩

/-- **C25.** For a successful call with all times in the base interval of the knots, all entries of the matrices are
numbers, and the product of the three rows of a datum with any model vector `m` is the field of the potential whose
time-dependent coefficient `k` is the spline with the `nseg` coefficients `m[k nseg], ..., m[k nseg + nseg - 1]` at the
time of the datum, and whose static coefficients are the rest of `m`. -/
theorem C25_product (rsurf : ℝ) (ha : rsurf ≠ 0) (knots : List ℝ) (order : ℕ) (ho : 0 < order) (hk : GoodKnots knots (order - 1))
    (ntdep : ℕ) (data : List Datum) (nstatic : Option ℕ) (source : Option String) (cols : ℕ)
    (rows : List ((ℕ → Option ℝ) × (ℕ → Option ℝ) × (ℕ → Option ℝ)))
    (hok : designMatrix rsurf knots order ntdep data nstatic source = .ok (cols, rows))
    (hr : ∀ p ∈ data, p.radius ≠ 0)
    (hin : ∀ p ∈ data, knots.getD (order - 1) 0 ≤ p.time ∧ p.time ≤ knots.getD (knots.length - order) 0) :
    let n := nstatic.getD ntdep
    let T := ntdep * (ntdep + 2)
    let nseg := (collocMatrix (data.map Datum.time) knots order none).1
    cols = T * nseg + (n * (n + 2) - T) ∧ T ≤ n * (n + 2) ∧ rows.length = data.length ∧
    ∃ w : Datum → ℕ → ℝ,
      (∀ (i : ℕ) (p : Datum), data[i]? = some p → ∃ row : ℕ → Option ℝ,
        (collocMatrix (data.map Datum.time) knots order none).2[i]? = some row ∧ ∀ s, s < nseg → row s = some (w p s)) ∧
      ∀ m : ℕ → ℝ, ∃ l : List (ℝ × ℝ × ℝ),
        Synth.synthValues rsurf (n * (n + 2)) (data.map fun p => { radius := p.radius, theta := p.theta, phi := p.phi, coeffs := fun k => if k < T then ∑ s ∈ Finset.range nseg, w p s * m (k * nseg + s) else m (T * nseg + (k - T)) })
          none (some (n : ℤ)) none (some (source.getD "internal")) = .ok l ∧
        ∀ i, i < data.length → ∃ (B : ℝ × ℝ × ℝ) (R : (ℕ → Option ℝ) × (ℕ → Option ℝ) × (ℕ → Option ℝ)) (g1 g2 g3 : ℕ → ℝ),
          l[i]? = some B ∧ rows[i]? = some R ∧
          (∀ k, k < cols → R.1 k = some (g1 k) ∧ R.2.1 k = some (g2 k) ∧ R.2.2 k = some (g3 k)) ∧
          B = (∑ k ∈ Finset.range cols, g1 k * m k, ∑ k ∈ Finset.range cols, g2 k * m k, ∑ k ∈ Finset.range cols, g3 k * m k) := by
  obtain ⟨hle, hpos, A, hA, hcols, hrows⟩ := designMatrix_ok hok
  have hs := hk.size
  intro n T nseg
  have hseg : nseg = knots.length - order := rfl
  have hsegpos : 0 < nseg := by omega
  have hTS : T ≤ n * (n + 2) := Nat.mul_le_mul hle (by omega)
  have htot : (nseg - 1) * T + n * (n + 2) = T * nseg + (n * (n + 2) - T) :=
    (designRow_get nseg T (n * (n + 2)) hsegpos hTS (fun _ => 0) (fun _ => none)).1
  have hw : ∀ p : Datum, p ∈ data → ∃ w : ℕ → ℝ, ∀ s, s < nseg → collocRow knots order 0 p.time s = some (w s) := by
    intro p hp
    obtain ⟨row, v, h1, h2, _⟩ := C23_partition [p.time] knots order ho hk none 0 p.time rfl (hin p hp).1 (hin p hp).2
    rw [colloc_rows [p.time] knots order none 0 p.time rfl] at h1
    cases h1
    exact ⟨v, fun s hs => h2 s hs⟩
  choose! w hw using hw
  have hlenA : ∀ c : Datum → ℕ → ℝ, A.length = data.length ∧ Synth.synthValues rsurf (n * (n + 2))
      (data.map fun p => { radius := p.radius, theta := p.theta, phi := p.phi, coeffs := c p })
      none (some (n : ℤ)) none (some (source.getD "internal")) = .ok (List.zipWith (fun (row : (ℕ → ℝ) × (ℕ → ℝ) × (ℕ → ℝ)) p =>
        (∑ j ∈ Finset.range (n * (n + 2)), row.1 j * c p j,
         ∑ j ∈ Finset.range (n * (n + 2)), row.2.1 j * c p j,
         ∑ j ∈ Finset.range (n * (n + 2)), row.2.2 j * c p j)) A data) := by
    intro c
    have := Synth.C17_design_product rsurf ha (data.map fun p => { radius := p.radius, theta := p.theta, phi := p.phi, coeffs := c p })
      (by intro p hp; obtain ⟨q, hq, rfl⟩ := List.mem_map.1 hp; exact hr q hq) (n : ℤ) none none (some (source.getD "internal"))
      (n * (n + 2)) A (by rw [List.map_map]; exact hA)
    rw [List.length_map] at this
    refine ⟨this.1, this.2.trans ?_⟩
    rw [List.zipWith_map_right]
  refine ⟨?_, hTS, ?_, w, ?_, ?_⟩
  · rw [hcols]; exact htot
  · rw [hrows]
    simp [(hlenA (fun _ _ => 0)).1]
  · intro i p hp
    refine ⟨_, colloc_rows _ knots order none i p.time (by rw [List.getElem?_map, hp]; rfl), ?_⟩
    intro s hs
    exact hw p (List.mem_of_getElem? hp) s hs
  · intro m
    obtain ⟨hl, hsv⟩ := hlenA (fun p k => if k < T then ∑ s ∈ Finset.range nseg, w p s * m (k * nseg + s) else m (T * nseg + (k - T)))
    refine ⟨_, hsv, ?_⟩
    intro i hi
    have hp : data[i]? = some data[i] := List.getElem?_eq_getElem hi
    have ha : A[i]? = some (A[i]'(by omega)) := List.getElem?_eq_getElem (by omega)
    generalize data[i] = p at *
    generalize A[i]'(by omega) = a at *
    have hwp := hw p (List.mem_of_getElem? hp)
    obtain ⟨g1, a1, b1⟩ := designRow_product nseg T (n * (n + 2)) hsegpos hTS a.1 (collocRow knots order 0 p.time) (w p) hwp m
    obtain ⟨g2, a2, b2⟩ := designRow_product nseg T (n * (n + 2)) hsegpos hTS a.2.1 (collocRow knots order 0 p.time) (w p) hwp m
    obtain ⟨g3, a3, b3⟩ := designRow_product nseg T (n * (n + 2)) hsegpos hTS a.2.2 (collocRow knots order 0 p.time) (w p) hwp m
    have hcols' : cols = (nseg - 1) * T + n * (n + 2) := hcols
    refine ⟨(∑ k ∈ Finset.range cols, g1 k * m k, ∑ k ∈ Finset.range cols, g2 k * m k, ∑ k ∈ Finset.range cols, g3 k * m k),
      (designRow nseg T (n * (n + 2)) a.1 (collocRow knots order 0 p.time), designRow nseg T (n * (n + 2)) a.2.1 (collocRow knots order 0 p.time),
       designRow nseg T (n * (n + 2)) a.2.2 (collocRow knots order 0 p.time)), g1, g2, g3, ?_, ?_, ?_, rfl⟩
    · rw [List.getElem?_zipWith, ha, hp, hcols', b1, b2, b3]
    · rw [hrows, List.getElem?_zipWith, ha, List.getElem?_map, List.getElem?_map, hp]
      rfl
    · intro k hk
      rw [hcols'] at hk
      exact ⟨a1 k hk, a2 k hk, a3 k hk⟩

/-- **C25** (degrees). With data strictly between the poles and at positive radius, the call succeeds exactly if the source is
known and either no static degree is given and the time-dependent degree is positive, or the static degree is positive and
not below the time-dependent one. -/
theorem C25_succeeds (rsurf : ℝ) (ha : rsurf ≠ 0) (knots : List ℝ) (order ntdep : ℕ) (data : List Datum) (hne : data ≠ [])
    (hr : ∀ p ∈ data, p.radius ≠ 0) (hth : ∀ p ∈ data, 0 < p.theta ∧ p.theta < 180) (nstatic : Option ℕ) (source : Option String) :
    (∃ r, designMatrix rsurf knots order ntdep data nstatic source = .ok r) ↔
      (source.getD "internal" = "internal" ∨ source.getD "internal" = "external") ∧
      (nstatic = none ∧ 0 < ntdep ∨ ∃ n, nstatic = some n ∧ 0 < n ∧ ntdep ≤ n) := by
  have hgs := Synth.C17_design_succeeds rsurf ha (data.map fun p => (p.radius, p.theta, p.phi)) (by simpa using hne)
    (by intro p hp; obtain ⟨q, hq, rfl⟩ := List.mem_map.1 hp; exact hr q hq)
    (by intro p hp; obtain ⟨q, hq, rfl⟩ := List.mem_map.1 hp; exact hth q hq)
    ((nstatic.getD ntdep : ℕ) : ℤ) 1 ((nstatic.getD ntdep : ℕ) : ℤ) (source.getD "internal")
  have hsame : Synth.designGauss rsurf (data.map fun p => (p.radius, p.theta, p.phi)) ((nstatic.getD ntdep : ℕ) : ℤ) none none (some (source.getD "internal")) =
      Synth.designGauss rsurf (data.map fun p => (p.radius, p.theta, p.phi)) ((nstatic.getD ntdep : ℕ) : ℤ) (some 1) (some ((nstatic.getD ntdep : ℕ) : ℤ)) (some (source.getD "internal")) := rfl
  constructor
  · rintro ⟨⟨cols, rows⟩, hok⟩
    obtain ⟨hle, hpos, A, hA, _⟩ := designMatrix_ok hok
    rw [hsame] at hA
    have := hgs.1 ⟨_, hA⟩
    refine ⟨this.2.2.2.2, ?_⟩
    cases nstatic with
    | none => exact Or.inl ⟨rfl, hpos⟩
    | some n => exact Or.inr ⟨n, rfl, hpos, hle⟩
  · rintro ⟨hsrc, hdeg⟩
    have hpos : 0 < nstatic.getD ntdep := by
      rcases hdeg with ⟨rfl, h⟩ | ⟨n, rfl, h, _⟩
      · exact h
      · exact h
    obtain ⟨r, hr⟩ := hgs.2 ⟨by norm_num, by omega, by omega, le_rfl, hsrc⟩
    rw [← hsame] at hr
    unfold designMatrix
    simp only [bind, Except.bind]
    have hmm : ∃ lo hi, Synth.aminmax (data.map Datum.theta) = .ok (lo, hi) ∧ lo > 0 ∧ hi < 180 := by
      cases data with
      | nil => exact absurd rfl hne
      | cons p l =>
        refine ⟨_, _, rfl, ?_, ?_⟩
        · rcases Synth.foldl_min_mem (l.map Datum.theta) p.theta with h | h
          · rw [h]; exact (hth p List.mem_cons_self).1
          · obtain ⟨q, hq, hqe⟩ := List.mem_map.1 h
            rw [← hqe]; exact (hth q (List.mem_cons_of_mem _ hq)).1
        · rcases Synth.foldl_max_mem (l.map Datum.theta) p.theta with h | h
          · rw [h]; exact (hth p List.mem_cons_self).2
          · obtain ⟨q, hq, hqe⟩ := List.mem_map.1 h
            rw [← hqe]; exact (hth q (List.mem_cons_of_mem _ hq)).2
    obtain ⟨lo, hi, h1, h2, h3⟩ := hmm
    rw [h1]
    simp only
    rw [if_neg (not_not.2 ⟨h2, h3⟩)]
    rcases hdeg with ⟨rfl, _⟩ | ⟨n, rfl, hn, hle⟩
    · simp only [pure, Except.pure]
      rw [hr]
      exact ⟨_, rfl⟩
    · simp only [pure, Except.pure]
      rw [if_neg (by omega), hr]
      exact ⟨_, rfl⟩

/-- **C25** (static degree too small): ValueError. -/
theorem C25_value_error (rsurf : ℝ) (knots : List ℝ) (order ntdep : ℕ) (data : List Datum) (hne : data ≠ [])
    (hth : ∀ p ∈ data, 0 < p.theta ∧ p.theta < 180) (n : ℕ) (hn : 0 < n) (hlt : n < ntdep) (source : Option String) :
    designMatrix rsurf knots order ntdep data (some n) source = .error .valueError := by
  unfold designMatrix
  simp only [bind, Except.bind]
  cases data with
  | nil => exact absurd rfl hne
  | cons p l =>
    have h1 : (l.map Datum.theta).foldl min p.theta > 0 := by
      rcases Synth.foldl_min_mem (l.map Datum.theta) p.theta with h | h
      · rw [h]; exact (hth p List.mem_cons_self).1
      · obtain ⟨q, hq, hqe⟩ := List.mem_map.1 h
        rw [← hqe]; exact (hth q (List.mem_cons_of_mem _ hq)).1
    have h2 : (l.map Datum.theta).foldl max p.theta < 180 := by
      rcases Synth.foldl_max_mem (l.map Datum.theta) p.theta with h | h
      · rw [h]; exact (hth p List.mem_cons_self).2
      · obtain ⟨q, hq, hqe⟩ := List.mem_map.1 h
        rw [← hqe]; exact (hth q (List.mem_cons_of_mem _ hq)).2
    rw [List.map_cons]
    simp only [Synth.aminmax]
    rw [if_neg (not_not.2 ⟨h1, h2⟩)]
    simp only [pure, Except.pure]
    rw [if_pos ⟨by omega, hlt⟩]
    rfl

/-- A concrete call (degree 1 in time, degree 2 static, cubic splines). -/
example : ∃ r, designMatrix 6371.2 (augmentBreaks [0, 1, 3] 4) 4 1 [⟨0.5, 6371.2, 60, 30⟩, ⟨3, 7000, 100, 10⟩] (some 2) none = .ok r :=
  (C25_succeeds 6371.2 (by norm_num) _ 4 1 _ (by simp)
    (by intro p hp
        simp only [List.mem_cons, List.not_mem_nil, or_false] at hp
        rcases hp with rfl | rfl <;> norm_num)
    (by intro p hp
        simp only [List.mem_cons, List.not_mem_nil, or_false] at hp
        rcases hp with rfl | rfl <;> norm_num) (some 2) none).2 ⟨Or.inl rfl, Or.inr ⟨2, rfl, by norm_num, by norm_num⟩⟩

end ChaosMagPy.BSpline
