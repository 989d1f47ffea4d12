import Verif.Props.Chaos
import Mathlib.Tactic.FieldSimp
import Mathlib.Tactic.Linarith
/-!
# C34: SM coefficients and the RC-index
-/
namespace ChaosMagPy.Chaos
open ChaosMagPy.Spec
open ChaosMagPy.Index (nmaxOfDim)
open ChaosMagPy.PPoly (Ascending Sorted IsPiece first last)

/-! ### Linear interpolation -/

theorem countP_lt (x : List ℝ) (j : ℕ) (t : ℝ) (hj : j ≤ x.length) (h1 : ∀ i < j, x.getD i 0 < t)
    (h2 : ∀ i, j ≤ i → i < x.length → t ≤ x.getD i 0) : x.countP (fun b => decide (b < t)) = j := by
  have hx : x = x.take j ++ x.drop j := (List.take_append_drop _ _).symm
  have a : (x.take j).countP (fun b => decide (b < t)) = (x.take j).length := by
    rw [List.countP_eq_length]
    intro b hb
    obtain ⟨i, hi, rfl⟩ := List.getElem_of_mem hb
    have hi' : i < j := by simp at hi; omega
    have := h1 i hi'
    rw [List.getD_eq_getElem _ _ (by omega)] at this
    simpa using this
  have b : (x.drop j).countP (fun b => decide (b < t)) = 0 := by
    rw [List.countP_eq_zero]
    intro b hb
    obtain ⟨i, hi, rfl⟩ := List.getElem_of_mem hb
    simp only [List.length_drop] at hi
    have := h2 (j + i) (by omega) (by omega)
    rw [List.getD_eq_getElem _ _ (by omega)] at this
    simpa using this
  rw [hx, List.countP_append, a, b]
  simp
  omega

/-- **C34** (interpolation). Between two neighbouring times of the table the RC value is linear in time; at the times of the table it is the
tabulated value. -/
theorem C34_interp (x y : List ℝ) (hx : Ascending x) (j : ℕ) (hj : j + 1 < x.length) (t : ℝ) (h1 : x.getD j 0 ≤ t) (h2 : t ≤ x.getD (j + 1) 0) :
    interp x y t = y.getD j 0 + (t - x.getD j 0) / (x.getD (j + 1) 0 - x.getD j 0) * (y.getD (j + 1) 0 - y.getD j 0) := by
  have hlt := hx.2 j hj
  have hd : x.getD (j + 1) 0 - x.getD j 0 ≠ 0 := by
    intro h; linarith
  have hle : ∀ a b, a ≤ b → b < x.length → x.getD a 0 ≤ x.getD b 0 := hx.sorted
  rcases eq_or_lt_of_le h1 with h | h
  · rcases Nat.eq_zero_or_pos j with rfl | hpos
    · have hc : x.countP (fun b => decide (b < t)) = 0 :=
        countP_lt x 0 t (by omega) (fun i hi => absurd hi (by omega)) (fun i _ hi => by rw [← h]; exact hle 0 i (by omega) hi)
      unfold interp
      simp only [hc]
      rw [show max 1 (min 0 (x.length - 1)) = 0 + 1 by omega, Nat.add_sub_cancel]
      field_simp
      ring
    · have hprev := hx.2 (j - 1) (by omega)
      rw [Nat.sub_add_cancel hpos] at hprev
      have hc : x.countP (fun b => decide (b < t)) = j :=
        countP_lt x j t (by omega) (fun i hi => by rw [← h]; exact hx.lt i j hi (by omega)) (fun i hi1 hi => by rw [← h]; exact hle j i hi1 hi)
      unfold interp
      simp only [hc]
      rw [show max 1 (min j (x.length - 1)) = j by omega, ← h]
      have hd' : x.getD j 0 - x.getD (j - 1) 0 ≠ 0 := by
        intro h; linarith
      field_simp
      ring
  · have hc : x.countP (fun b => decide (b < t)) = j + 1 :=
      countP_lt x (j + 1) t (by omega) (fun i hi => lt_of_le_of_lt (hle i j (by omega) (by omega)) h)
        (fun i hi1 hi => h2.trans (hle (j + 1) i hi1 hi))
    unfold interp
    simp only [hc]
    rw [show max 1 (min (j + 1) (x.length - 1)) = j + 1 by omega, Nat.add_sub_cancel]
    field_simp
    ring

/-- **C34** (interpolation). The tabulated value at the times of the table. -/
theorem C34_nodes (x y : List ℝ) (hx : Ascending x) (j : ℕ) (hj : j < x.length) : interp x y (x.getD j 0) = y.getD j 0 := by
  rcases Nat.lt_or_ge (j + 1) x.length with h | h
  · rw [C34_interp x y hx j h _ le_rfl (hx.2 j h).le]
    simp
  · have h2 := hx.1
    obtain ⟨i, rfl⟩ : ∃ i, j = i + 1 := ⟨j - 1, by omega⟩
    have hlt := hx.2 i hj
    rw [C34_interp x y hx i hj _ hlt.le le_rfl, div_self (by intro h; linarith)]
    ring

/-- **C34** (interpolation). The RC value lies between the values at the neighbouring times of the table. -/
theorem C34_between (x y : List ℝ) (hx : Ascending x) (j : ℕ) (hj : j + 1 < x.length) (t : ℝ) (h1 : x.getD j 0 ≤ t) (h2 : t ≤ x.getD (j + 1) 0) :
    min (y.getD j 0) (y.getD (j + 1) 0) ≤ interp x y t ∧ interp x y t ≤ max (y.getD j 0) (y.getD (j + 1) 0) := by
  rw [C34_interp x y hx j hj t h1 h2]
  have hlt := hx.2 j hj
  have hd : 0 < x.getD (j + 1) 0 - x.getD j 0 := by linarith
  have w0 : 0 ≤ (t - x.getD j 0) / (x.getD (j + 1) 0 - x.getD j 0) := div_nonneg (by linarith) hd.le
  have w1 : (t - x.getD j 0) / (x.getD (j + 1) 0 - x.getD j 0) ≤ 1 := (div_le_one hd).2 (by linarith)
  generalize (t - x.getD j 0) / (x.getD (j + 1) 0 - x.getD j 0) = w at w0 w1
  generalize y.getD j 0 = a
  generalize y.getD (j + 1) 0 = b
  have e : a + w * (b - a) = (1 - w) * a + w * b := by ring
  rw [e]
  constructor
  · have := mul_le_mul_of_nonneg_left (min_le_left a b) (by linarith : 0 ≤ 1 - w)
    have := mul_le_mul_of_nonneg_left (min_le_right a b) w0
    linarith [show (1 - w) * min a b + w * min a b = min a b by ring]
  · have := mul_le_mul_of_nonneg_left (le_max_left a b) (by linarith : 0 ≤ 1 - w)
    have := mul_le_mul_of_nonneg_left (le_max_right a b) w0
    linarith [show (1 - w) * max a b + w * max a b = max a b by ring]

/-! ### The result -/

/-- The RC values used for the times: those supplied, or those interpolated from the column of the file that belongs to the source
(`RC_e` or `RC_i`), if all times are in the table. -/
def RcUsed (f : RcFile) (internal : Bool) (times : List ℝ) (rc : Option (List ℝ)) (rcs : List ℝ) : Prop :=
  (rc = some rcs ∧ rcs.length = times.length) ∨
    (rc = none ∧ (∀ t ∈ times, first f.time ≤ t ∧ t ≤ last f.time) ∧ rcs = times.map (interp f.time (if internal then f.rcI else f.rcE)))

/-- The coefficients in the SM frame: the first three are scaled by RC and corrected by the baselines. -/
noncomputable def smVector (c : ℕ → ℝ) (delta : ℕ → ℝ) (rc : ℝ) (j : ℕ) : ℝ := if j < 3 then rc * c j + delta j else c j

/-- The coefficients of one time in the Earth-fixed frame, from the matrices of the inducing (`R`) and the induced field (`Rind`). -/
noncomputable def smRow (internal : Bool) (dim : ℕ) (R Rind : ℕ → ℕ → ℝ) (c delta : ℕ → ℝ) (rc : ℝ) (i : ℕ) : ℝ :=
  if internal then
    ∑ j ∈ Finset.range dim, Rind i j * smVector c delta 0 j + (if i < 3 then ∑ j ∈ Finset.range 3, R i j * (rc * c j) else 0)
  else ∑ j ∈ Finset.range dim, R i j * smVector c delta rc j

theorem rcColumn_ext (f : RcFile) : rcColumn f "external" = .ok f.rcE := rfl
theorem rcColumn_int (f : RcFile) : rcColumn f "internal" = .ok f.rcI := rfl

theorem any_outside (f : RcFile) (times : List ℝ) :
    times.any (fun t => decide (t < first f.time) || decide (last f.time < t)) = false ↔ ∀ t ∈ times, first f.time ≤ t ∧ t ≤ last f.time := by
  rw [List.any_eq_false]
  refine forall_congr' fun t => forall_congr' fun _ => ?_
  simp [not_or]

theorem rcValues_iff (f : RcFile) (internal : Bool) (times : List ℝ) (rc : Option (List ℝ)) (rcs : List ℝ) :
    rcValues f (if internal then "internal" else "external") times rc = .ok rcs ↔ RcUsed f internal times rc rcs := by
  have hcol : rcColumn f (if internal then "internal" else "external") = .ok (if internal then f.rcI else f.rcE) := by
    cases internal
    · exact rcColumn_ext f
    · exact rcColumn_int f
  unfold RcUsed
  cases rc with
  | some l =>
    change (if l.length = times.length then Except.ok l else Except.error Error.valueError) = .ok rcs ↔ _
    by_cases h : l.length = times.length
    · rw [if_pos h]
      simp only [Except.ok.injEq, Option.some.injEq, reduceCtorEq, false_and, or_false]
      exact ⟨fun e => ⟨e, e ▸ h⟩, fun e => e.1⟩
    · rw [if_neg h]
      simp only [reduceCtorEq, Option.some.injEq, false_and, or_false, false_iff]
      rintro ⟨rfl, h'⟩
      exact h h'
  | none =>
    unfold rcValues rcFromFile
    rw [hcol]
    simp only [bind, Except.bind, pure, Except.pure, throw, throwThe, MonadExceptOf.throw]
    by_cases h : times.any (fun t => decide (t < first f.time) || decide (last f.time < t)) = true
    · rw [if_pos h]
      simp only [reduceCtorEq, false_and, false_or, true_and, false_iff]
      rintro ⟨h', -⟩
      rw [← any_outside] at h'
      rw [h'] at h
      cases h
    · rw [if_neg h]
      have h' := (any_outside f times).1 (by simpa using h)
      simp only [Except.ok.injEq, reduceCtorEq, false_and, false_or, true_and]
      exact ⟨fun e => ⟨h', e.symm⟩, fun e => e.2.symm⟩

theorem external_row (file : SpectrumFile) (g : Gauss) (d : Delta) (t r : ℝ) :
    matVec g.dim (file.rot t) (smExternal g d r t) = smRow false g.dim (file.series false t) (file.series true t) g.c (d.eval t) r := by
  funext i
  unfold matVec smRow smExternal smVector
  simp only [rot_series, Bool.false_eq_true, if_false]

theorem internal_row (file : SpectrumFile) (g : Gauss) (d : Delta) (t r : ℝ) :
    smInternalRow file g d r t = smRow true g.dim (file.series false t) (file.series true t) g.c (d.eval t) r := by
  funext i
  unfold smInternalRow matVec smRow smInduced smVector
  simp only [rot_series, rotInd_series, if_true, zero_mul, zero_add]

/-- **C34.** When `synth_coeffs_sm` succeeds, and what it returns: the model has SM coefficients up to a full degree `N ≥ 1` and baseline
corrections, there is at least one time, the file belongs to the configured dipole and fits, the source is one of the two names, and RC values
are supplied or in the table. The row of a time is the rotated vector whose first three components are `RC · c + delta` ('external'), or the
induced part of the vector without RC plus the rotated `RC · c` in the first three rows ('internal'). -/
theorem C34_result (env : Env) (m : Chaos) (times : List ℝ) (nmax : Option ℕ) (source : Option String) (rc : Option (List ℝ))
    (r : ℕ × List (ℕ → ℝ)) :
    synthCoeffsSm env m times nmax source rc = .ok r ↔ ∃ g d N internal rcs, m.sm = some g ∧ m.delta = some d ∧ times ≠ [] ∧
      env.smFile.dipole = env.dipole ∧ 1 ≤ N ∧ g.dim = N * (N + 2) ∧ env.smFile.cols = g.dim ∧
      source.getD "external" = (if internal then "internal" else "external") ∧ RcUsed env.rcFile internal times rc rcs ∧
      r.1 = min env.smFile.rows (usedDegree N nmax * (usedDegree N nmax + 2)) ∧
      r.2 = List.zipWith (fun t ρ => smRow internal g.dim (env.smFile.series false t) (env.smFile.series true t) g.c (d.eval t) ρ) times rcs := by
  have hclip : ∀ N, clipNmax N nmax = usedDegree N nmax := by
    intro N
    cases nmax with
    | none => rfl
    | some n =>
      simp only [clipNmax, usedDegree]
      split_ifs <;> omega
  have hdim : ∀ N : ℕ, (nmaxOfDim (N * (N + 2))).toNat = N := by
    intro N
    have := (Index.C12_nmax_of_dim (N * (N + 2)) N).2 ⟨le_rfl, by ring_nf; omega⟩
    rw [this]
    simp
  unfold synthCoeffsSm
  cases hg : m.sm with
  | none => simp
  | some g =>
    simp only
    cases hs : m.delta with
    | none => simp
    | some d =>
      simp only [bind, Except.bind, pure, Except.pure, throw, throwThe, MonadExceptOf.throw]
      by_cases ht : times = []
      · simp [nonempty, ht]
      rw [show nonempty times = .ok () from if_neg ht]
      simp only
      by_cases hd : env.smFile.dipole = env.dipole
      swap
      · rw [show dipoleAssert env.smFile.dipole env.dipole = .error .assertionError from if_neg hd]
        simp [hd]
      rw [show dipoleAssert env.smFile.dipole env.dipole = .ok () from if_pos hd]
      simp only
      generalize hsrc : source.getD "external" = s
      by_cases hin : ∃ internal : Bool, s = (if internal then "internal" else "external")
      · obtain ⟨b, rfl⟩ := hin
        cases hrc : rcValues env.rcFile (if b then "internal" else "external") times rc with
        | error e =>
          simp only [reduceCtorEq, false_iff]
          rintro ⟨g', d', N, b', rcs, _, _, _, _, _, _, _, hb, hu, _⟩
          have : b = b' := by cases b <;> cases b' <;> simp_all
          subst this
          rw [(rcValues_iff _ _ _ _ _).2 hu] at hrc
          cases hrc
        | ok rcs =>
          have hu := (rcValues_iff _ _ _ _ _).1 hrc
          simp only
          have key : ∀ rowf : ℝ → ℝ → ℕ → ℝ,
              (∀ t ρ, rowf t ρ = smRow b g.dim (env.smFile.series false t) (env.smFile.series true t) g.c (d.eval t) ρ) →
              ((if (nmaxOfDim g.dim).toNat = 0 then (Except.error Error.indexError : Except Error (ℕ × List (ℕ → ℝ)))
                else if g.dim ≠ (nmaxOfDim g.dim).toNat * ((nmaxOfDim g.dim).toNat + 2) ∨ env.smFile.cols ≠ g.dim then
                  Except.error Error.valueError
                else Except.ok (cutDim env.smFile.rows (clipNmax (nmaxOfDim g.dim).toNat nmax), List.zipWith rowf times rcs)) = .ok r ↔
                ∃ g_1 d_1 N internal rcs, some g = some g_1 ∧ some d = some d_1 ∧ times ≠ [] ∧ env.smFile.dipole = env.dipole ∧ 1 ≤ N ∧
                  g_1.dim = N * (N + 2) ∧ env.smFile.cols = g_1.dim ∧
                  (if b then "internal" else "external") = (if internal then "internal" else "external") ∧
                  RcUsed env.rcFile internal times rc rcs ∧
                  r.1 = min env.smFile.rows (usedDegree N nmax * (usedDegree N nmax + 2)) ∧
                  r.2 = List.zipWith (fun t ρ => smRow internal g_1.dim (env.smFile.series false t) (env.smFile.series true t) g_1.c (d_1.eval t) ρ)
                    times rcs) := by
            intro rowf hrow
            have hrow' : rowf = fun t ρ => smRow b g.dim (env.smFile.series false t) (env.smFile.series true t) g.c (d.eval t) ρ := by
              funext t ρ; exact hrow t ρ
            constructor
            · intro h
              split_ifs at h with h1 h2
              push Not at h2
              injection h with h
              refine ⟨g, d, _, b, rcs, rfl, rfl, ht, hd, Nat.one_le_iff_ne_zero.2 h1, h2.1, h2.2, rfl, hu, ?_, ?_⟩
              · rw [← h, ← hclip]; rfl
              · rw [← h, hrow']
            · rintro ⟨g', d', N, b', rcs', hg', hd', _, _, hN, hdimg, hcols, hb, hu', hr1, hr2⟩
              cases hg'
              cases hd'
              have : b = b' := by cases b <;> cases b' <;> simp_all
              subst this
              have : rcs = rcs' := by
                have := hrc.symm.trans ((rcValues_iff _ _ _ _ _).2 hu')
                injection this
              subst this
              have hNN : (nmaxOfDim g.dim).toNat = N := by rw [hdimg]; exact hdim N
              rw [hNN, if_neg (by omega), if_neg (by push Not; exact ⟨hdimg, hcols⟩), hrow']
              congr 1
              refine Prod.ext ?_ hr2.symm
              rw [hr1, hclip]
              rfl
          cases b
          · simp only [Bool.false_eq_true, if_false, if_true]
            exact key _ fun t ρ => external_row _ _ _ _ _
          · simp only [if_true]
            rw [if_neg (by decide)]
            exact key _ fun t ρ => internal_row _ _ _ _ _
      · have n1 : s ≠ "external" := fun h => hin ⟨false, h⟩
        have n2 : s ≠ "internal" := fun h => hin ⟨true, h⟩
        constructor
        · intro h
          split at h
          · cases h
          · rw [if_neg n1, if_neg n2] at h
            cases h
        · rintro ⟨_, _, _, b, _, _, _, _, _, _, _, _, hb, _⟩
          exact absurd ⟨b, hb⟩ hin

/-- The piecewise polynomial of baseline correction `i`. -/
def Delta.part (d : Delta) (i : Fin 3) : PPoly.PP := ![d.q10, d.q11, d.s11] i

/-- **C34** (baselines). The correction of coefficient `i < 3` is the polynomial of the interval that contains the time; before the first and
after the last break point it is the polynomial of the first and of the last interval. -/
theorem C34_baseline (d : Delta) (i : Fin 3) (h : Ascending (d.part i).x) (t : ℝ) (j : ℕ)
    (hj : IsPiece (d.part i).x j t ∨ (t < first (d.part i).x ∧ j = 0) ∨ (last (d.part i).x < t ∧ j = (d.part i).x.length - 2)) :
    d.eval t i = poly (d.part i).k (fun q => (d.part i).c q j 0) ((d.part i).x.getD j 0) t := by
  have hf : PPoly.findInterval (d.part i).x true t = some j := by
    rcases hj with hj | ⟨h1, rfl⟩ | ⟨h1, rfl⟩
    · exact PPoly.findInterval_piece _ h.sorted true j t hj
    · unfold PPoly.findInterval
      rw [if_pos h1, if_pos rfl]
    · unfold PPoly.findInterval
      have := h.span
      rw [if_neg (by linarith), if_pos h1, if_pos rfl]
  have he : d.eval t i = PPoly.evalPoly (d.part i).k (fun q => (d.part i).c q j 0) 0 (t - (d.part i).x.getD j 0) := by
    have hv : (d.part i).eval true 0 t = some fun z => PPoly.evalPoly (d.part i).k (fun q => (d.part i).c q j z) 0 (t - (d.part i).x.getD j 0) := by
      unfold PPoly.PP.eval
      rw [hf]
      rfl
    have hd : d.eval t i = match (d.part i).eval true 0 t with | some v => v 0 | none => 0 := by
      fin_cases i <;> rfl
    rw [hd, hv]
  rw [he]
  unfold poly PPoly.evalPoly
  exact Finset.sum_congr rfl fun q _ => by simp

theorem smRow_affine (b : Bool) (dim : ℕ) (R Rind : ℕ → ℕ → ℝ) (c delta : ℕ → ℝ) (x x' a : ℝ) (i : ℕ) :
    a * smRow b dim R Rind c delta x i + (1 - a) * smRow b dim R Rind c delta x' i = smRow b dim R Rind c delta (a * x + (1 - a) * x') i := by
  cases b
  · simp only [smRow, Bool.false_eq_true, if_false]
    rw [Finset.mul_sum, Finset.mul_sum, ← Finset.sum_add_distrib]
    refine Finset.sum_congr rfl fun j _ => ?_
    unfold smVector
    by_cases h : j < 3
    · rw [if_pos h, if_pos h, if_pos h]; ring
    · rw [if_neg h, if_neg h, if_neg h]; ring
  · simp only [smRow, if_true]
    by_cases h : i < 3
    · rw [if_pos h, if_pos h, if_pos h]
      have e : ∑ j ∈ Finset.range 3, R i j * ((a * x + (1 - a) * x') * c j) =
          a * ∑ j ∈ Finset.range 3, R i j * (x * c j) + (1 - a) * ∑ j ∈ Finset.range 3, R i j * (x' * c j) := by
        rw [Finset.mul_sum, Finset.mul_sum, ← Finset.sum_add_distrib]
        exact Finset.sum_congr rfl fun j _ => by ring
      rw [e]
      ring
    · rw [if_neg h, if_neg h, if_neg h]
      ring

/-- **C34.** The coefficients are an affine function of the RC values: for affine combinations `a·rc + (1-a)·rc'` of two series of RC
values, the coefficients are the same combination of the coefficients, for both sources, all times and every truncation. -/
theorem C34_affine (env : Env) (m : Chaos) (times : List ℝ) (nmax : Option ℕ) (source : Option String) (rc rc' : List ℝ) (a : ℝ)
    (n n' : ℕ) (l l' : List (ℕ → ℝ)) (h : synthCoeffsSm env m times nmax source (some rc) = .ok (n, l))
    (h' : synthCoeffsSm env m times nmax source (some rc') = .ok (n', l')) :
    n' = n ∧ synthCoeffsSm env m times nmax source (some (List.zipWith (fun x x' => a * x + (1 - a) * x') rc rc')) =
      .ok (n, List.zipWith (fun v v' i => a * v i + (1 - a) * v' i) l l') := by
  obtain ⟨g, d, N, b, rcs, h1, h2, h3, h4, h5, h6, h7, h8, h9, h10, h11⟩ := (C34_result _ _ _ _ _ _ _).1 h
  obtain ⟨g', d', N', b', rcs', h1', h2', _, _, _, h6', _, h8', h9', h10', h11'⟩ := (C34_result _ _ _ _ _ _ _).1 h'
  rw [h1] at h1'
  cases h1'
  rw [h2] at h2'
  cases h2'
  have hb : b = b' := by
    rw [h8] at h8'
    cases b <;> cases b' <;> simp_all
  subst hb
  have hN : N = N' := by
    rw [h6] at h6'
    nlinarith [lt_trichotomy N N']
  subst hN
  rcases h9 with ⟨e, hl⟩ | ⟨e, _⟩
  swap
  · cases e
  rcases h9' with ⟨e', hl'⟩ | ⟨e', _⟩
  swap
  · cases e'
  cases e
  cases e'
  refine ⟨by simp only at h10 h10'; rw [h10, h10'], (C34_result _ _ _ _ _ _ _).2
    ⟨g, d, N, b, _, h1, h2, h3, h4, h5, h6, h7, h8, Or.inl ⟨rfl, by simp [hl, hl']⟩, h10, ?_⟩⟩
  simp only at h11 h11' ⊢
  rw [h11, h11']
  apply List.ext_getElem
  · simp [hl, hl']
  intro k hk1 hk2
  simp only [List.getElem_zipWith]
  funext i
  exact smRow_affine _ _ _ _ _ _ _ _ _ _

/-- **C34** (exceptions), in the order of the checks. A time outside of the RC table is a ValueError; an unknown source is a ValueError if RC
values are supplied. **Finding:** without RC values an unknown source fails in the table lookup (KeyError, or IndexError for the empty
string) unless it starts with 'e' or 'i', and a model without baseline corrections fails with TypeError. -/
theorem C34_errors (env : Env) (m : Chaos) (times : List ℝ) (nmax : Option ℕ) (source : Option String) (rc : Option (List ℝ)) :
    (m.sm = none → synthCoeffsSm env m times nmax source rc = .error .valueError) ∧
    (m.sm ≠ none → m.delta = none → synthCoeffsSm env m times nmax source rc = .error .typeError) ∧
    (m.sm ≠ none → m.delta ≠ none → times = [] → synthCoeffsSm env m times nmax source rc = .error .valueError) ∧
    (m.sm ≠ none → m.delta ≠ none → times ≠ [] → env.smFile.dipole ≠ env.dipole →
      synthCoeffsSm env m times nmax source rc = .error .assertionError) ∧
    (m.sm ≠ none → m.delta ≠ none → times ≠ [] → env.smFile.dipole = env.dipole →
      (source.getD "external" = "external" ∨ source.getD "external" = "internal") → rc = none →
      (∃ t ∈ times, t < first env.rcFile.time ∨ last env.rcFile.time < t) →
      synthCoeffsSm env m times nmax source rc = .error .valueError) ∧
    (m.sm ≠ none → m.delta ≠ none → times ≠ [] → env.smFile.dipole = env.dipole →
      source.getD "external" ≠ "external" → source.getD "external" ≠ "internal" →
      (∃ l, rc = some l ∧ l.length = times.length) → synthCoeffsSm env m times nmax source rc = .error .valueError) ∧
    (m.sm ≠ none → m.delta ≠ none → times ≠ [] → env.smFile.dipole = env.dipole → rc = none →
      (source = some "all" → synthCoeffsSm env m times nmax source rc = .error .keyError) ∧
      (source = some "" → synthCoeffsSm env m times nmax source rc = .error .indexError)) := by
  refine ⟨?_, ?_, ?_, ?_, ?_, ?_, ?_⟩
  · intro h
    simp [synthCoeffsSm, h]
  · intro h h'
    obtain ⟨g, hg⟩ := Option.ne_none_iff_exists'.1 h
    simp [synthCoeffsSm, hg, h']
  · intro h h' ht
    obtain ⟨g, hg⟩ := Option.ne_none_iff_exists'.1 h
    obtain ⟨st, hst⟩ := Option.ne_none_iff_exists'.1 h'
    simp [synthCoeffsSm, hg, hst, ht, nonempty, bind, Except.bind]
  · intro h h' ht hd
    obtain ⟨g, hg⟩ := Option.ne_none_iff_exists'.1 h
    obtain ⟨st, hst⟩ := Option.ne_none_iff_exists'.1 h'
    simp [synthCoeffsSm, hg, hst, ht, nonempty, bind, Except.bind, dipoleAssert, hd]
  · rintro h h' ht hd hs rfl ⟨t, htm, hout⟩
    obtain ⟨g, hg⟩ := Option.ne_none_iff_exists'.1 h
    obtain ⟨st, hst⟩ := Option.ne_none_iff_exists'.1 h'
    have e1 : nonempty times = .ok () := if_neg ht
    have e2 : dipoleAssert env.smFile.dipole env.dipole = .ok () := if_pos hd
    have e3 : rcValues env.rcFile (source.getD "external") times none = .error .valueError := by
      have hany : times.any (fun t => decide (t < first env.rcFile.time) || decide (last env.rcFile.time < t)) = true := by
        rw [List.any_eq_true]
        exact ⟨t, htm, by simpa using hout⟩
      unfold rcValues rcFromFile
      rcases hs with hs | hs
      · rw [hs, rcColumn_ext]
        simp only [bind, Except.bind, throw, throwThe, MonadExceptOf.throw]
        rw [if_pos hany]
      · rw [hs, rcColumn_int]
        simp only [bind, Except.bind, throw, throwThe, MonadExceptOf.throw]
        rw [if_pos hany]
    simp only [synthCoeffsSm, hg, hst, e1, e2, e3, bind, Except.bind]
  · rintro h h' ht hd hs1 hs2 ⟨l, rfl, hl⟩
    obtain ⟨g, hg⟩ := Option.ne_none_iff_exists'.1 h
    obtain ⟨st, hst⟩ := Option.ne_none_iff_exists'.1 h'
    have e1 : nonempty times = .ok () := if_neg ht
    have e2 : dipoleAssert env.smFile.dipole env.dipole = .ok () := if_pos hd
    have e3 : rcValues env.rcFile (source.getD "external") times (some l) = .ok l := if_pos hl
    simp only [synthCoeffsSm, hg, hst, e1, e2, e3, bind, Except.bind, throw, throwThe, MonadExceptOf.throw]
    rw [if_neg hs1, if_neg hs2]
  · rintro h h' ht hd rfl
    obtain ⟨g, hg⟩ := Option.ne_none_iff_exists'.1 h
    obtain ⟨st, hst⟩ := Option.ne_none_iff_exists'.1 h'
    have e1 : nonempty times = .ok () := if_neg ht
    have e2 : dipoleAssert env.smFile.dipole env.dipole = .ok () := if_pos hd
    constructor
    · rintro rfl
      have e3 : rcValues env.rcFile "all" times none = .error .keyError := rfl
      simp only [synthCoeffsSm, hg, hst, e1, e2, e3, bind, Except.bind, Option.getD_some]
    · rintro rfl
      have e3 : rcValues env.rcFile "" times none = .error .indexError := rfl
      simp only [synthCoeffsSm, hg, hst, e1, e2, e3, bind, Except.bind, Option.getD_some]

/-! ### A concrete model -/

/-- A file with the identity as (time-independent) rotation matrix and half of it as induced part. -/
noncomputable def exSpectrum : SpectrumFile where
  dipole := (1, 0, 0)
  rows := 3
  cols := 3
  k := 1
  frequency := fun _ _ _ => 0
  spectrum := fun _ i j => if i = j then 1 else 0
  kInd := 1
  frequencyInd := fun _ _ _ => 0
  spectrumInd := fun _ i j => if i = j then 1 / 2 else 0
  scaled := true

/-- Configuration for the examples. -/
noncomputable def exEnv : Env where
  rSurf := 6371.2
  dipole := (1, 0, 0)
  gsmFile := exSpectrum
  smFile := exSpectrum
  rcFile := ⟨[0, 10], [1, 3], [2, 2]⟩

/-- A degree 1 model with all sources: time-dependent part linear in time, static part constant. -/
noncomputable def exChaos : Chaos :=
  Chaos.init [0, 10] (some 2) (some ⟨2, 3, fun i _ _ => if i = 0 then 1 else 0⟩) (some ⟨1, 3, fun _ _ _ => 5⟩)
    (some ⟨3, fun i => i + 1⟩) (some ⟨3, fun _ => 4⟩)
    (some ⟨⟨1, [0, 10], fun _ _ _ => 7⟩, ⟨1, [0, 10], fun _ _ _ => 8⟩, ⟨1, [0, 10], fun _ _ _ => 9⟩⟩)

/-- Halfway between two tabulated times the RC-index is the mean, and the coefficients are `2·(1, 2, 3) + (7, 8, 9)`. -/
example : ∃ l, synthCoeffsSm exEnv exChaos [5] none none none = .ok (3, [l]) ∧ l 0 = 9 ∧ l 1 = 12 ∧ l 2 = 15 := by
  have hx : Ascending ([0, 10] : List ℝ) := ⟨by simp, fun j hj => by
    have : j = 0 := by simp at hj; omega
    subst this
    norm_num⟩
  have hi : interp [0, 10] [1, 3] 5 = 2 := by
    rw [C34_interp _ _ hx 0 (by simp) 5 (by norm_num) (by norm_num)]
    norm_num
  have hS : ∀ t i j, exEnv.smFile.series false t i j = if i = j then 1 else 0 := by
    intro t i j
    simp only [SpectrumFile.series, fourierSeries, exEnv, exSpectrum]
    simp
    split_ifs <;> simp
  refine ⟨_, (C34_result _ _ _ _ _ _ _).2 ⟨⟨3, fun i => i + 1⟩, ⟨⟨1, [0, 10], fun _ _ _ => 7⟩, ⟨1, [0, 10], fun _ _ _ => 8⟩,
    ⟨1, [0, 10], fun _ _ _ => 9⟩⟩, 1, false, [2], rfl, rfl, by simp, rfl, le_rfl, rfl, rfl, rfl, Or.inr ⟨rfl, ?_, ?_⟩, rfl, rfl⟩, ?_⟩
  · intro t ht
    simp only [List.mem_singleton] at ht
    subst ht
    constructor <;> norm_num [exEnv, first, last]
  · simp only [List.map_cons, List.map_nil, exEnv, Bool.false_eq_true, if_false, hi]
  · have hD : ∀ i : Fin 3, ∀ v, (![7, 8, 9] : Fin 3 → ℝ) i = v →
        (⟨⟨1, [0, 10], fun _ _ _ => 7⟩, ⟨1, [0, 10], fun _ _ _ => 8⟩, ⟨1, [0, 10], fun _ _ _ => 9⟩⟩ : Delta).eval 5 i = v := by
      intro i v hv
      have hp : IsPiece ([0, 10] : List ℝ) 0 5 := ⟨by simp, Or.inl (by norm_num)⟩
      rw [C34_baseline _ i (by fin_cases i <;> exact hx) 5 0 (Or.inl (by fin_cases i <;> exact hp)), ← hv]
      fin_cases i <;> simp [poly, Delta.part]
    simp only [smRow, Bool.false_eq_true, if_false, smVector, hS, Finset.sum_range_succ, Finset.sum_range_zero]
    have d0 := hD 0 7 rfl
    have d1 := hD 1 8 rfl
    have d2 := hD 2 9 rfl
    simp only [Fin.val_zero, Fin.val_one, Fin.val_two] at d0 d1 d2
    simp only [d0, d1, d2]
    norm_num

end ChaosMagPy.Chaos
