import Verif.Lemmas.Coord
import Verif.Lemmas.SynthField
/-!
# C36-C38, C40, C41, C43: coordinate systems
-/
namespace ChaosMagPy.Coord
open ChaosMagPy.Spec

/-! ### C40, C41: azimuth and local time -/

theorem remainder_range (x m : ℝ) (hm : 0 < m) : 0 ≤ remainder x m ∧ remainder x m < m := by
  unfold remainder floorDiv
  have h1 := Int.floor_le (x / m)
  have h2 := Int.lt_floor_add_one (x / m)
  rw [le_div_iff₀ hm] at h1
  rw [div_lt_iff₀ hm] at h2
  constructor <;> nlinarith

theorem remainder_eq (x m : ℝ) : ∃ k : ℤ, remainder x m = x + k * m := by
  refine ⟨-⌊x / m⌋, ?_⟩
  unfold remainder floorDiv
  push_cast
  ring

/-- Two numbers of a half-open interval of length `m` that differ by a multiple of `m` are equal. -/
theorem unique_mod (x y m : ℝ) (hm : 0 < m) (k : ℤ) (h : x = y + k * m) (h1 : |x - y| < m) : x = y := by
  have hk : |(k : ℝ)| < 1 := by
    have : x - y = k * m := by linarith
    rw [this, abs_mul, abs_of_pos hm] at h1
    exact (mul_lt_iff_lt_one_left hm).1 h1
  have : |k| < 1 := by exact_mod_cast hk
  have : k = 0 := Int.abs_lt_one_iff.1 this
  rw [this] at h
  simpa using h

/-- **C40.** The result lies in `(-180, 180]`, differs from the input by a multiple of 360, and is the only such number. -/
theorem C40_center_azimuth (phi : ℝ) :
    -180 < centerAzimuth phi ∧ centerAzimuth phi ≤ 180 ∧ (∃ k : ℤ, centerAzimuth phi = phi + 360 * k) ∧
    ∀ x : ℝ, -180 < x → x ≤ 180 → (∃ k : ℤ, x = phi + 360 * k) → x = centerAzimuth phi := by
  have hr := remainder_range phi 360 (by norm_num)
  obtain ⟨k, hk⟩ := remainder_eq phi 360
  have hb : -180 < centerAzimuth phi ∧ centerAzimuth phi ≤ 180 ∧ ∃ k : ℤ, centerAzimuth phi = phi + 360 * k := by
    unfold centerAzimuth
    simp only
    split_ifs with h
    · refine ⟨by linarith [hr.1], by linarith [hr.2], k - 1, ?_⟩
      push_cast
      linarith
    · refine ⟨by linarith [hr.1], by linarith, k, by linarith⟩
  refine ⟨hb.1, hb.2.1, hb.2.2, ?_⟩
  intro x h1 h2 ⟨j, hj⟩
  obtain ⟨i, hi⟩ := hb.2.2
  apply unique_mod x (centerAzimuth phi) 360 (by norm_num) (j - i)
  · push_cast
    linarith
  · rw [abs_lt]
    constructor <;> linarith [hb.1, hb.2.1]

/-- **C40** (idempotent). -/
theorem C40_idempotent (phi : ℝ) : centerAzimuth (centerAzimuth phi) = centerAzimuth phi := by
  obtain ⟨h1, h2, _, _⟩ := C40_center_azimuth phi
  exact ((C40_center_azimuth (centerAzimuth phi)).2.2.2 _ h1 h2 ⟨0, by simp⟩).symm

/-- **C41.** Local time lies in `[0, 24)` and is, up to whole days, 24 hours per day of time plus one hour per 15 degrees of
longitude; it is the only such number. -/
theorem C41_local_time (time phi : ℝ) :
    0 ≤ localTime time phi ∧ localTime time phi < 24 ∧ (∃ k : ℤ, localTime time phi = 24 * time + phi / 15 + 24 * k) ∧
    ∀ x : ℝ, 0 ≤ x → x < 24 → (∃ k : ℤ, x = 24 * time + phi / 15 + 24 * k) → x = localTime time phi := by
  have hr := remainder_range (time + phi / 360) 1 (by norm_num)
  obtain ⟨k, hk⟩ := remainder_eq (time + phi / 360) 1
  have hb : 0 ≤ localTime time phi ∧ localTime time phi < 24 ∧ ∃ k : ℤ, localTime time phi = 24 * time + phi / 15 + 24 * k := by
    unfold localTime
    refine ⟨by linarith [hr.1], by linarith [hr.2], k, ?_⟩
    rw [hk]
    ring
  refine ⟨hb.1, hb.2.1, hb.2.2, ?_⟩
  intro x h1 h2 ⟨j, hj⟩
  obtain ⟨i, hi⟩ := hb.2.2
  apply unique_mod x (localTime time phi) 24 (by norm_num) (j - i)
  · push_cast
    linarith
  · rw [abs_lt]
    constructor <;> linarith [hb.1, hb.2.1]

/-- **C41** (periodic). Whole days and full turns do not change it; half a day and half a turn are 12 hours. -/
theorem C41_periodic (time phi : ℝ) (k j : ℤ) : localTime (time + k) (phi + 360 * j) = localTime time phi := by
  obtain ⟨h1, h2, ⟨i, hi⟩, _⟩ := C41_local_time (time + k) (phi + 360 * j)
  apply (C41_local_time time phi).2.2.2 _ h1 h2
  refine ⟨i + k + j, ?_⟩
  rw [hi]
  push_cast
  ring

/-! ### C38: spherical and cartesian coordinates -/

/-- **C38.** Converting to spherical coordinates gives values in the documented ranges, and converting back returns the
cartesian coordinates, for every point; the other way round for canonical coordinates. -/
theorem C38_spherical :
    (∀ v : Vec, ∃ r theta phi : ℝ, cartesianToSpherical v = (r, theta, phi) ∧ 0 ≤ r ∧ r ^ 2 = dot v v ∧ 0 ≤ theta ∧ theta ≤ 180 ∧
      -180 < phi ∧ phi ≤ 180 ∧ sphericalToCartesian r theta phi = v) ∧
    (∀ r theta phi : ℝ, 0 < r → 0 < theta → theta < 180 → -180 < phi → phi ≤ 180 →
      cartesianToSpherical (sphericalToCartesian r theta phi) = (r, theta, phi)) ∧
    (∀ r theta phi : ℝ, sphericalToCartesian r theta phi = fun i => r * direction theta phi i) := by
  refine ⟨?_, ?_, ?_⟩
  · intro v
    obtain ⟨h1, h2, h3, h4⟩ := cart_range v
    refine ⟨_, _, _, rfl, Real.sqrt_nonneg _, ?_, h1, h2, h3, h4, sph_cart v⟩
    rw [Real.sq_sqrt (by positivity)]
    unfold dot
    ring
  · intro r theta phi h1 h2 h3 h4 h5
    exact cart_sph r theta phi h1 h2 h3 h4 h5
  · intro r theta phi
    funext i
    simp only [sphericalToCartesian, direction, radians_eq]
    fin_cases i <;> simp only [Matrix.cons_val, Fin.zero_eta, Fin.mk_one, Fin.reduceFinMk] <;> ring

/-! ### C43: dipole -/

theorem normalize_unit {a w : Vec} (h : normalize a = some w) : dot w w = 1 ∧ norm a ≠ 0 ∧ w = fun i => a i / norm a := by
  unfold normalize at h
  by_cases hn : norm a = 0
  · rw [if_pos hn] at h; cases h
  · rw [if_neg hn] at h
    cases h
    refine ⟨?_, hn, rfl⟩
    have hN := norm_sq a
    have : dot (fun i => a i / norm a) (fun i => a i / norm a) = dot a a / norm a ^ 2 := by
      simp only [dot]; field_simp
    rw [this, ← hN, div_self (pow_ne_zero 2 hn)]

/-- **C43.** Three Gauss coefficients, given as one array or as a tuple, give the same unit vector: the one antiparallel to
`(g11, h11, g10)` (NaN if all are zero). -/
theorem C43_coefficients (config : ℝ × ℝ × ℝ) (g10 g11 h11 : ℝ) :
    dipoleToVec config (.array g10 g11 h11) = dipoleToVec config (.tuple [g10, g11, h11]) ∧
    dipoleToVec config .none = dipoleToVec config (.array config.1 config.2.1 config.2.2) ∧
    ((g10 = 0 ∧ g11 = 0 ∧ h11 = 0) → dipoleToVec config (.array g10 g11 h11) = .ok none) ∧
    (¬ (g10 = 0 ∧ g11 = 0 ∧ h11 = 0) → ∃ (v : Vec) (m : ℝ), dipoleToVec config (.array g10 g11 h11) = .ok (some v) ∧
      dot v v = 1 ∧ 0 < m ∧ ![g11, h11, g10] = fun i => -(m * v i)) := by
  refine ⟨rfl, rfl, ?_, ?_⟩
  · rintro ⟨rfl, rfl, rfl⟩
    simp [dipoleToVec, dipoleArray, normalize, norm]
  · intro h
    have hn : norm ![g11, h11, g10] ≠ 0 := by
      intro hc
      rw [norm_eq_zero] at hc
      apply h
      exact ⟨congrFun hc 2, congrFun hc 0, congrFun hc 1⟩
    have hpos : 0 < norm ![g11, h11, g10] := lt_of_le_of_ne (Real.sqrt_nonneg _) (Ne.symm hn)
    have hs := normalize_some _ hn
    refine ⟨fun i => -(![g11, h11, g10] i / norm ![g11, h11, g10]), norm ![g11, h11, g10], ?_, ?_, hpos, ?_⟩
    · simp [dipoleToVec, dipoleArray, hs]
    · have := (normalize_unit hs).1
      unfold dot at this ⊢
      linarith
    · funext i
      field_simp

/-- **C43** (scaling). The unit vector does not depend on a positive factor, and is reversed by a negative one. -/
theorem C43_scaling (config : ℝ × ℝ × ℝ) (g10 g11 h11 s : ℝ) (hs : 0 < s) :
    dipoleToVec config (.array (s * g10) (s * g11) (s * h11)) = dipoleToVec config (.array g10 g11 h11) := by
  simp only [dipoleToVec, dipoleArray]
  have hn : norm ![s * g11, s * h11, s * g10] = s * norm ![g11, h11, g10] := by
    unfold norm
    simp only [Matrix.cons_val]
    rw [show (s * g11) ^ 2 + (s * h11) ^ 2 + (s * g10) ^ 2 = s ^ 2 * (g11 ^ 2 + h11 ^ 2 + g10 ^ 2) by ring, Real.sqrt_mul (sq_nonneg s), Real.sqrt_sq hs.le]
  unfold normalize
  rw [hn]
  by_cases h : norm ![g11, h11, g10] = 0
  · rw [if_pos h, if_pos (by rw [h, mul_zero])]
  · rw [if_neg h, if_neg (mul_ne_zero hs.ne' h)]
    simp only [Option.map_some]
    congr 2
    funext i
    fin_cases i <;> simp [mul_div_mul_left _ _ hs.ne']

/-- **C43** (pole position). The two-angle form gives the same vector as the coefficients of a dipole whose geomagnetic north pole
is there: `(g11, h11, g10)` opposite to the direction of the pole. -/
theorem C43_pole (config : ℝ × ℝ × ℝ) (theta phi m : ℝ) (hm : 0 < m) :
    dipoleToVec config (.tuple [theta, phi]) = .ok (some (direction theta phi)) ∧
    dipoleToVec config (.array (-(m * direction theta phi 2)) (-(m * direction theta phi 0)) (-(m * direction theta phi 1))) =
      dipoleToVec config (.tuple [theta, phi]) := by
  have h1 : dipoleToVec config (.tuple [theta, phi]) = .ok (some (direction theta phi)) := by
    simp only [dipoleToVec, direction, radians_eq]
  refine ⟨h1, ?_⟩
  rw [h1]
  have hu := direction_unit theta phi
  generalize direction theta phi = d at hu
  have hnn : norm ![-(m * d 0), -(m * d 1), -(m * d 2)] = m := by
    unfold norm
    simp only [Matrix.cons_val]
    unfold dot at hu
    rw [show (-(m * d 0)) ^ 2 + (-(m * d 1)) ^ 2 + (-(m * d 2)) ^ 2 = m ^ 2 by linear_combination m ^ 2 * hu, Real.sqrt_sq hm.le]
  simp only [dipoleToVec, dipoleArray]
  rw [normalize_some _ (by rw [hnn]; exact hm.ne'), hnn]
  simp only [Option.map_some]
  congr 2
  funext i
  fin_cases i <;> simp <;> field_simp

/-- **C43** (errors). Tuples of other lengths raise ValueError. -/
theorem C43_length (config : ℝ × ℝ × ℝ) (args : List ℝ) (h2 : args.length ≠ 2) (h3 : args.length ≠ 3) :
    dipoleToVec config (.tuple args) = .error .valueError := by
  match args, h2, h3 with
  | [], _, _ => rfl
  | [_], _, _ => rfl
  | [_, _], h, _ => exact absurd rfl h
  | [_, _, _], _, h => exact absurd rfl h
  | _ :: _ :: _ :: _ :: _, _, _ => rfl

theorem dipole_unit {config : ℝ × ℝ × ℝ} {d : Dipole} {v : Vec} (h : dipoleToVec config d = .ok (some v)) : dot v v = 1 := by
  have gen : ∀ g10 g11 h11, dipoleArray g10 g11 h11 = some v → dot v v = 1 := by
    intro g10 g11 h11 he
    unfold dipoleArray at he
    cases hn : normalize ![g11, h11, g10] with
    | none => rw [hn] at he; cases he
    | some w =>
      rw [hn] at he
      cases he
      have := (normalize_unit hn).1
      unfold dot at this ⊢
      linarith
  match d with
  | .none => simp only [dipoleToVec, Except.ok.injEq] at h; exact gen _ _ _ h
  | .array _ _ _ => simp only [dipoleToVec, Except.ok.injEq] at h; exact gen _ _ _ h
  | .tuple [theta, phi] =>
    rw [(C43_pole config theta phi 1 one_pos).1] at h
    cases h
    exact direction_unit theta phi
  | .tuple [a, b, c] => simp only [dipoleToVec, Except.ok.injEq] at h; exact gen a b c h
  | .tuple [] => simp [dipoleToVec] at h
  | .tuple [_] => simp [dipoleToVec] at h
  | .tuple (_ :: _ :: _ :: _ :: _) => simp [dipoleToVec] at h

/-- **C43** (IGRF). Without an epoch, `igrf_dipole` is the direction of the default `params.dipole` and that of epoch 2015; for both epochs the
result is a unit vector to a pole of the northern hemisphere, for 2010 to the one with colatitude 11.32 and longitude 289.59 degrees; other epochs
raise ValueError. -/
theorem C43_igrf :
    igrfDipole none = dipoleToVec (-29442, -1501, 4797.1) .none ∧ igrfDipole (some "2015") = igrfDipole none ∧
    igrfDipole (some "2010") = .ok (some (direction 11.32 289.59)) ∧
    (∀ e v, igrfDipole e = .ok v → ∃ u, v = some u ∧ dot u u = 1 ∧ 0 < u 2) ∧
    (∀ e, e ≠ "2015" → e ≠ "2010" → igrfDipole (some e) = .error .valueError) := by
  have ne : ¬ ("2010" = "2015") := by decide
  have h10 : igrfDipole (some "2010") = .ok (some (direction 11.32 289.59)) := by
    unfold igrfDipole
    simp only [Option.getD_some]
    rw [if_neg ne, if_pos trivial]
    exact (C43_pole _ _ _ 1 one_pos).1
  have h15 : igrfDipole none = dipoleToVec (-29442, -1501, 4797.1) .none := by
    unfold igrfDipole
    simp only [Option.getD_none]
    rw [if_pos trivial]
    rfl
  have hs : igrfDipole (some "2015") = igrfDipole none := rfl
  have other : ∀ e, e ≠ "2015" → e ≠ "2010" → igrfDipole (some e) = .error .valueError := fun e h1 h2 => by
    unfold igrfDipole
    simp only [Option.getD_some]
    rw [if_neg h1, if_neg h2]
  have g15 : ∀ v, igrfDipole none = .ok v → ∃ u, v = some u ∧ dot u u = 1 ∧ 0 < u 2 := by
    intro v hv
    rw [h15, (C43_coefficients _ 0 0 0).2.1] at hv
    obtain ⟨w, m, hw, hu, hm, hd⟩ := (C43_coefficients (-29442, -1501, 4797.1) (-29442) (-1501) 4797.1).2.2.2 (by norm_num)
    rw [hw] at hv
    injection hv with hv
    refine ⟨w, hv.symm, hu, ?_⟩
    have := congrFun hd 2
    simp only [Matrix.cons_val] at this
    nlinarith
  refine ⟨h15, hs, h10, fun e v hv => ?_, other⟩
  match e with
  | none => exact g15 v hv
  | some e =>
    by_cases h1 : e = "2015"
    · exact g15 v (by rw [h1, hs] at hv; exact hv)
    · by_cases h2 : e = "2010"
      · rw [h2, h10] at hv
        injection hv with hv
        refine ⟨_, hv.symm, direction_unit _ _, ?_⟩
        show 0 < Real.cos (11.32 * Real.pi / 180)
        have := Real.pi_pos
        exact Real.cos_pos_of_mem_Ioo ⟨by linarith, by linarith⟩
      · rw [other e h1 h2] at hv
        exact nomatch hv

/-! ### C37: base vectors -/

theorem normalize_cross {a b w : Vec} (h : normalize (cross a b) = some w) : dot w w = 1 ∧ dot w a = 0 ∧ dot w b = 0 := by
  obtain ⟨h1, h2, h3⟩ := normalize_unit h
  refine ⟨h1, ?_, ?_⟩
  · rw [h3]
    have : dot (fun i => cross a b i / norm (cross a b)) a = dot (cross a b) a / norm (cross a b) := by simp only [dot]; field_simp
    rw [this]
    have : dot (cross a b) a = 0 := by simp only [dot, cross, Matrix.cons_val]; ring
    rw [this, zero_div]
  · rw [h3]
    have : dot (fun i => cross a b i / norm (cross a b)) b = dot (cross a b) b / norm (cross a b) := by simp only [dot]; field_simp
    rw [this]
    have : dot (cross a b) b = 0 := by simp only [dot, cross, Matrix.cons_val]; ring
    rw [this, zero_div]

theorem dot_comm (a b : Vec) : dot a b = dot b a := by unfold dot; ring

/-- Direction to the sun at a time (as returned by `sun_position`). -/
noncomputable def sunDirection (time : ℝ) : Vec := direction (sunPoint time).1 (sunPoint time).2

/-- **C37** (GSM). For every time and dipole direction that is not parallel to that of the sun: right-handed and orthonormal, the
first axis points to the sun, the dipole is in the plane of the first and third axis, on the positive side of the third. -/
theorem C37_gsm (time : ℝ) (vec : Vec) (hv : dot vec vec = 1) :
    (cross vec (sunDirection time) = 0 → baseGsm time vec = none) ∧
    (cross vec (sunDirection time) ≠ 0 → ∃ b, baseGsm time vec = some b ∧ RightHanded b.e1 b.e2 b.e3 ∧ b.e1 = sunDirection time ∧
      dot vec b.e2 = 0 ∧ 0 < dot vec b.e3) := by
  unfold baseGsm sunDirection
  simp only [sph_eq]
  have hs := direction_unit (sunPoint time).1 (sunPoint time).2
  generalize direction (sunPoint time).1 (sunPoint time).2 = s at hs
  constructor
  · intro h
    rw [h, normalize, if_pos ((norm_eq_zero 0).2 rfl)]
    rfl
  · intro h
    have hn : norm (cross vec s) ≠ 0 := fun hc => h ((norm_eq_zero _).1 hc)
    have hw := normalize_some _ hn
    obtain ⟨h1, h2, h3⟩ := normalize_cross hw
    rw [hw]
    refine ⟨_, rfl, rightHanded_left s _ hs h1 (by rw [dot_comm]; exact h3), rfl, by rw [dot_comm]; exact h2, ?_⟩
    have hpos : 0 < norm (cross vec s) := lt_of_le_of_ne (Real.sqrt_nonneg _) (Ne.symm hn)
    have hN := norm_sq (cross vec s)
    have : dot vec (cross s fun i => cross vec s i / norm (cross vec s)) = norm (cross vec s) := by
      have e : dot vec (cross s fun i => cross vec s i / norm (cross vec s)) = dot (cross vec s) (cross vec s) / norm (cross vec s) := by
        simp only [dot]
        generalize norm (cross vec s) = n
        simp only [cross, Matrix.cons_val]
        ring
      rw [e, ← hN]
      field_simp
    simp only
    rw [this]
    exact hpos

/-- **C37** (SM). Right-handed and orthonormal, the third axis is the dipole direction, the sun is in the plane of the first and
third axis, on the positive side of the first; the second axis is that of GSM. -/
theorem C37_sm (time : ℝ) (vec : Vec) (hv : dot vec vec = 1) :
    (cross vec (sunDirection time) = 0 → baseSm time vec = none) ∧
    (cross vec (sunDirection time) ≠ 0 → ∃ b g, baseSm time vec = some b ∧ RightHanded b.e1 b.e2 b.e3 ∧ b.e3 = vec ∧
      dot (sunDirection time) b.e2 = 0 ∧ 0 < dot (sunDirection time) b.e1 ∧ baseGsm time vec = some g ∧ b.e2 = g.e2) := by
  unfold baseSm baseGsm sunDirection
  simp only [sph_eq]
  have hs := direction_unit (sunPoint time).1 (sunPoint time).2
  generalize direction (sunPoint time).1 (sunPoint time).2 = s at hs
  constructor
  · intro h
    rw [h, normalize, if_pos ((norm_eq_zero 0).2 rfl)]
    rfl
  · intro h
    have hn : norm (cross vec s) ≠ 0 := fun hc => h ((norm_eq_zero _).1 hc)
    have hw := normalize_some _ hn
    obtain ⟨h1, h2, h3⟩ := normalize_cross hw
    rw [hw]
    refine ⟨_, _, rfl, rightHanded_right _ vec h1 hv h2, rfl, by rw [dot_comm]; exact h3, ?_, rfl, rfl⟩
    have hpos : 0 < norm (cross vec s) := lt_of_le_of_ne (Real.sqrt_nonneg _) (Ne.symm hn)
    have hN := norm_sq (cross vec s)
    have : dot s (cross (fun i => cross vec s i / norm (cross vec s)) vec) = norm (cross vec s) := by
      have e : dot s (cross (fun i => cross vec s i / norm (cross vec s)) vec) = dot (cross vec s) (cross vec s) / norm (cross vec s) := by
        simp only [dot]
        generalize norm (cross vec s) = n
        simp only [cross, Matrix.cons_val]
        ring
      rw [e, ← hN]
      field_simp
    simp only
    rw [this]
    exact hpos

/-- **C37** (MAG). For every dipole direction off the geographic axis: right-handed and orthonormal, the third axis is the dipole
direction, the second is horizontal (in the equatorial plane), the first points to the southern side. -/
theorem C37_mag (vec : Vec) (hv : dot vec vec = 1) :
    (vec 0 = 0 ∧ vec 1 = 0 → baseMag vec = none) ∧
    (¬ (vec 0 = 0 ∧ vec 1 = 0) → ∃ b, baseMag vec = some b ∧ RightHanded b.e1 b.e2 b.e3 ∧ b.e3 = vec ∧ b.e2 2 = 0 ∧ b.e1 2 < 0) := by
  unfold baseMag
  have hN := norm_sq (cross ![0, 0, 1] vec)
  have hN' : norm (cross ![0, 0, 1] vec) ^ 2 = vec 0 ^ 2 + vec 1 ^ 2 := by
    rw [hN]
    simp only [dot, cross, Matrix.cons_val]
    ring
  constructor
  · rintro ⟨h0, h1⟩
    rw [h0, h1] at hN'
    have : norm (cross ![0, 0, 1] vec) = 0 := by
      have : norm (cross ![0, 0, 1] vec) ^ 2 = 0 := by rw [hN']; ring
      exact pow_eq_zero_iff two_ne_zero |>.1 this
    rw [normalize, if_pos this]
    rfl
  · intro h
    have hn : norm (cross ![0, 0, 1] vec) ≠ 0 := by
      intro hc
      rw [hc] at hN'
      apply h
      constructor <;> nlinarith [sq_nonneg (vec 0), sq_nonneg (vec 1)]
    have hpos : 0 < norm (cross ![0, 0, 1] vec) := lt_of_le_of_ne (Real.sqrt_nonneg _) (Ne.symm hn)
    have hw := normalize_some _ hn
    obtain ⟨h1, h2, h3⟩ := normalize_cross hw
    rw [hw]
    refine ⟨_, rfl, rightHanded_right _ vec h1 hv h3, rfl, ?_, ?_⟩
    · have : cross ![0, 0, 1] vec 2 = 0 := by simp only [cross, Matrix.cons_val]; ring
      simp [this]
    · generalize norm (cross ![0, 0, 1] vec) = n at hpos hN'
      simp only [cross, Matrix.cons_val]
      have : (0 * vec 2 - 1 * vec 1) / n * vec 1 - (1 * vec 0 - 0 * vec 2) / n * vec 0 = -n := by
        field_simp
        linarith
      rw [this]
      linarith

theorem use_eq (theta phi : ℝ) : usePoint theta phi = ⟨direction theta phi, south theta phi, east phi⟩ := by
  simp only [usePoint, direction, south, east, radians_eq]

theorem use_rh (theta phi : ℝ) : RightHanded (direction theta phi) (south theta phi) (east phi) := by
  have ht := Real.sin_sq_add_cos_sq (theta * Real.pi / 180)
  have hp := Real.sin_sq_add_cos_sq (phi * Real.pi / 180)
  refine ⟨direction_unit theta phi, ?_, ?_, ?_, ?_, ?_, ?_⟩
  · simp only [dot, south, Matrix.cons_val]
    linear_combination Real.cos (theta * Real.pi / 180) ^ 2 * hp + ht
  · simp only [dot, east, Matrix.cons_val]
    linear_combination hp
  · simp only [dot, direction, south, Matrix.cons_val]
    linear_combination Real.sin (theta * Real.pi / 180) * Real.cos (theta * Real.pi / 180) * hp
  · simp only [dot, direction, east, Matrix.cons_val]
    ring
  · simp only [dot, south, east, Matrix.cons_val]
    ring
  · funext i
    simp only [vecProd, direction, south, east]
    fin_cases i <;> simp only [Matrix.cons_val, Fin.zero_eta, Fin.mk_one, Fin.reduceFinMk]
    · linear_combination -Real.sin (phi * Real.pi / 180) * ht
    · linear_combination Real.cos (phi * Real.pi / 180) * ht
    · ring

/-- **C37** (local frame). Up, south, east at the point. -/
theorem C37_use (theta phi : ℝ) : let b := usePoint theta phi
    b.e1 = direction theta phi ∧ b.e2 = south theta phi ∧ b.e3 = east phi ∧ RightHanded b.e1 b.e2 b.e3 := by
  rw [use_eq]
  exact ⟨rfl, rfl, rfl, use_rh theta phi⟩

/-- **C37** (poles). For colatitudes between 0 and 180 degrees the local frame is refused (ValueError) exactly if one of the
points is a pole. -/
theorem C37_use_poles (thetas : List ℝ) (hne : thetas ≠ []) (hr : ∀ t ∈ thetas, 0 ≤ t ∧ t ≤ 180) :
    useCheck thetas = false ↔ ∃ t ∈ thetas, t = 0 ∨ t = 180 := by
  obtain ⟨x, xs, rfl⟩ := List.exists_cons_of_ne_nil hne
  simp only [useCheck, List.map_cons]
  have hmem : ∀ y, y ∈ radians x :: xs.map radians ↔ ∃ t ∈ x :: xs, y = radians t := by
    intro y
    rw [← List.map_cons, List.mem_map]
    simp only [eq_comm]
  have hrange : ∀ y ∈ radians x :: xs.map radians, 0 ≤ y ∧ y ≤ Real.pi := by
    intro y hy
    obtain ⟨t, ht, rfl⟩ := (hmem y).1 hy
    have := hr t ht
    rw [← radians_0, ← radians_180]
    exact ⟨radians_le.2 this.1, radians_le.2 this.2⟩
  have hmin := List.mem_cons.2 (Synth.foldl_min_mem (xs.map radians) (radians x))
  have hmax := List.mem_cons.2 (Synth.foldl_max_mem (xs.map radians) (radians x))
  have hle : ∀ y ∈ radians x :: xs.map radians, (xs.map radians).foldl min (radians x) ≤ y := by
    intro y hy
    rcases List.mem_cons.1 hy with rfl | hy
    · exact (Synth.foldl_min_le (xs.map radians) (radians x)).1
    · exact (Synth.foldl_min_le (xs.map radians) (radians x)).2 y hy
  have hge : ∀ y ∈ radians x :: xs.map radians, y ≤ (xs.map radians).foldl max (radians x) := by
    intro y hy
    rcases List.mem_cons.1 hy with rfl | hy
    · exact (Synth.le_foldl_max (xs.map radians) (radians x)).1
    · exact (Synth.le_foldl_max (xs.map radians) (radians x)).2 y hy
  simp only [Bool.not_eq_false', Bool.or_eq_true, decide_eq_true_eq]
  constructor
  · rintro (h | h)
    · rw [h] at hmin
      obtain ⟨t, ht, he⟩ := (hmem 0).1 hmin
      refine ⟨t, ht, Or.inl ?_⟩
      rw [← degrees_radians t, ← he]; simp [degrees]
    · rw [h] at hmax
      obtain ⟨t, ht, he⟩ := (hmem Real.pi).1 hmax
      refine ⟨t, ht, Or.inr ?_⟩
      rw [← degrees_radians t, ← he, ← radians_180, degrees_radians]
  · rintro ⟨t, ht, rfl | rfl⟩
    · left
      have hm : (0 : ℝ) ∈ radians x :: xs.map radians := (hmem 0).2 ⟨0, ht, radians_0.symm⟩
      exact le_antisymm (hle 0 hm) (hrange _ hmin).1
    · right
      have hm : Real.pi ∈ radians x :: xs.map radians := (hmem _).2 ⟨180, ht, radians_180.symm⟩
      exact le_antisymm (hrange _ hmax).2 (hge _ hm)

/-- **C37** (poles, finding). A pole slips through if another colatitude is out of range. -/
theorem C37_use_poles_slip : useCheck [0, -1] = true := by
  have := Real.pi_pos
  have h1 : ¬ ([-1].map radians).foldl min (radians 0) = 0 := by
    simp only [List.map_cons, List.map_nil, List.foldl_cons, List.foldl_nil, radians]
    rw [min_eq_right (by nlinarith)]
    nlinarith
  have h2 : ¬ ([-1].map radians).foldl max (radians 0) = Real.pi := by
    simp only [List.map_cons, List.map_nil, List.foldl_cons, List.foldl_nil, radians]
    rw [max_eq_left (by nlinarith)]
    nlinarith
  simp only [useCheck, List.map_cons] at h1 h2 ⊢
  rw [decide_eq_false h1, decide_eq_false h2]
  rfl

/-! ### C36, C38: rotations -/

/-- The same point (unit vector) in both systems. -/
def SamePoint (b : Base) (theta phi thetaRef phiRef : ℝ) : Prop :=
  combine b.e1 b.e2 b.e3 (direction thetaRef phiRef) = direction theta phi

theorem combine_eq (b : Base) (p : Vec) :
    (![b.e1 0 * p 0 + b.e2 0 * p 1 + b.e3 0 * p 2, b.e1 1 * p 0 + b.e2 1 * p 1 + b.e3 1 * p 2,
        b.e1 2 * p 0 + b.e2 2 * p 1 + b.e3 2 * p 2] : Vec) = combine b.e1 b.e2 b.e3 p := by
  funext i
  fin_cases i <;> simp only [combine, Matrix.cons_val, Fin.zero_eta, Fin.mk_one, Fin.reduceFinMk] <;> ring

theorem geoToBase_forward (b : Base) (hb : RightHanded b.e1 b.e2 b.e3) (theta phi : ℝ) :
    SamePoint b theta phi (geoToBase theta phi b false).1 (geoToBase theta phi b false).2 := by
  unfold SamePoint geoToBase
  simp only [Bool.false_eq_true, if_false, sph_eq]
  have h := rh_unit_rows hb (direction theta phi)
  rw [direction_unit] at h
  have h' := unit_direction _ h
  simp only [dot] at h'
  rw [h']
  exact rh_rows hb _

theorem geoToBase_inverse (b : Base) (hb : RightHanded b.e1 b.e2 b.e3) (theta phi : ℝ) :
    SamePoint b (geoToBase theta phi b true).1 (geoToBase theta phi b true).2 theta phi := by
  unfold SamePoint geoToBase
  simp only [if_true, sph_eq]
  rw [combine_eq]
  have h := rh_unit_combine hb (direction theta phi)
  rw [direction_unit] at h
  exact (unit_direction _ h).symm

theorem geoToBase_range (b : Base) (theta phi : ℝ) (inverse : Bool) :
    0 ≤ (geoToBase theta phi b inverse).1 ∧ (geoToBase theta phi b inverse).1 ≤ 180 ∧
    -180 < (geoToBase theta phi b inverse).2 ∧ (geoToBase theta phi b inverse).2 ≤ 180 := by
  unfold geoToBase
  exact cart_range _

/-- Canonical coordinates are determined by the direction. -/
theorem direction_inj (t p t' p' : ℝ) (h1 : 0 < t) (h2 : t < 180) (h3 : -180 < p) (h4 : p ≤ 180)
    (h1' : 0 ≤ t') (h2' : t' ≤ 180) (h3' : -180 < p') (h4' : p' ≤ 180) (h : direction t p = direction t' p') : t = t' ∧ p = p' := by
  have e := cart_sph 1 t p one_pos h1 h2 h3 h4
  rw [sph_eq, h] at e
  have hz : Real.cos (t * Real.pi / 180) = Real.cos (t' * Real.pi / 180) := by
    have := congrFun h 2
    simpa [direction] using this
  have hpi := Real.pi_pos
  have ht : t = t' := by
    have := Real.injOn_cos (show t * Real.pi / 180 ∈ Set.Icc 0 Real.pi by constructor <;> nlinarith)
      (show t' * Real.pi / 180 ∈ Set.Icc 0 Real.pi by constructor <;> nlinarith) hz
    nlinarith
  have e' := cart_sph 1 t' p' one_pos (by linarith) (by linarith) h3' h4'
  rw [sph_eq, e] at e'
  simp only [Prod.mk.injEq, true_and] at e'
  exact e'

theorem combine_inj {b : Base} (hb : RightHanded b.e1 b.e2 b.e3) {c d : Vec} (h : combine b.e1 b.e2 b.e3 c = combine b.e1 b.e2 b.e3 d) : c = d := by
  rw [← rh_dot_combine hb c, ← rh_dot_combine hb d, h]

theorem geoToBase_undo (b : Base) (hb : RightHanded b.e1 b.e2 b.e3) (theta phi : ℝ) (inverse : Bool)
    (h1 : 0 < theta) (h2 : theta < 180) (h3 : -180 < phi) (h4 : phi ≤ 180) :
    geoToBase (geoToBase theta phi b inverse).1 (geoToBase theta phi b inverse).2 b (!inverse) = (theta, phi) := by
  set q := geoToBase theta phi b inverse with hq
  obtain ⟨r1, r2, r3, r4⟩ := geoToBase_range b q.1 q.2 (!inverse)
  cases inverse with
  | false =>
    have f := geoToBase_forward b hb theta phi
    have g := geoToBase_inverse b hb q.1 q.2
    unfold SamePoint at f g
    rw [← hq] at f
    rw [f] at g
    have := direction_inj _ _ _ _ h1 h2 h3 h4 r1 r2 r3 r4 g
    exact (Prod.ext this.1 this.2).symm
  | true =>
    have f := geoToBase_inverse b hb theta phi
    have g := geoToBase_forward b hb q.1 q.2
    unfold SamePoint at f g
    rw [← hq] at f
    rw [← f] at g
    have := direction_inj _ _ _ _ h1 h2 h3 h4 r1 r2 r3 r4 (combine_inj hb g.symm)
    exact (Prod.ext this.1 this.2).symm

/-- Base vectors used by the transformations. -/
theorem ref_cases (config : ℝ × ℝ × ℝ) (reference : String) (dipole : Dipole) (times : List ℝ) :
    (∃ e, referenceBase config reference dipole times = .error e) ∨
    ∃ f : ℝ → Option Base, referenceBase config reference dipole times = .ok (times.map f) ∧
      ∀ t b, f t = some b → RightHanded b.e1 b.e2 b.e3 := by
  have key : ∀ (v : Option Vec), dipoleToVec config dipole = .ok v → ∀ w, v = some w → dot w w = 1 := by
    intro v h w hw
    rw [hw] at h
    exact dipole_unit h
  unfold referenceBase
  by_cases h1 : reference = "gsm"
  · rw [if_pos h1]
    cases hd : dipoleToVec config dipole with
    | error e => exact Or.inl ⟨e, rfl⟩
    | ok v =>
      have hv := key v hd
      by_cases hc : sunCheck times = true
      · right
        refine ⟨fun t => v.bind (baseGsm t), by simp [hc, bind, Except.bind, pure, Except.pure], ?_⟩
        intro t b hb
        cases v with
        | none => cases hb
        | some w =>
          simp only [Option.bind_some] at hb
          by_cases hx : cross w (sunDirection t) = 0
          · rw [(C37_gsm t w (hv w rfl)).1 hx] at hb; cases hb
          · obtain ⟨b', e, hr, _⟩ := (C37_gsm t w (hv w rfl)).2 hx
            rw [e] at hb
            cases hb
            exact hr
      · left
        exact ⟨.assertionError, by simp [hc, bind, Except.bind, throw, throwThe, MonadExceptOf.throw]⟩
  rw [if_neg h1]
  by_cases h2 : reference = "sm"
  · rw [if_pos h2]
    cases hd : dipoleToVec config dipole with
    | error e => exact Or.inl ⟨e, rfl⟩
    | ok v =>
      have hv := key v hd
      by_cases hc : sunCheck times = true
      · right
        refine ⟨fun t => v.bind (baseSm t), by simp [hc, bind, Except.bind, pure, Except.pure], ?_⟩
        intro t b hb
        cases v with
        | none => cases hb
        | some w =>
          simp only [Option.bind_some] at hb
          by_cases hx : cross w (sunDirection t) = 0
          · rw [(C37_sm t w (hv w rfl)).1 hx] at hb; cases hb
          · obtain ⟨b', g, e, hr, _⟩ := (C37_sm t w (hv w rfl)).2 hx
            rw [e] at hb
            cases hb
            exact hr
      · left
        exact ⟨.assertionError, by simp [hc, bind, Except.bind, throw, throwThe, MonadExceptOf.throw]⟩
  rw [if_neg h2]
  by_cases h3 : reference = "mag"
  · rw [if_pos h3]
    cases hd : dipoleToVec config dipole with
    | error e => exact Or.inl ⟨e, rfl⟩
    | ok v =>
      have hv := key v hd
      right
      refine ⟨fun _ => v.bind baseMag, rfl, ?_⟩
      intro t b hb
      cases v with
      | none => cases hb
      | some w =>
        simp only [Option.bind_some] at hb
        by_cases hx : w 0 = 0 ∧ w 1 = 0
        · rw [(C37_mag w (hv w rfl)).1 hx] at hb; cases hb
        · obtain ⟨b', e, hr, _⟩ := (C37_mag w (hv w rfl)).2 hx
          rw [e] at hb
          cases hb
          exact hr
  · rw [if_neg h3]
    exact Or.inl ⟨_, rfl⟩

theorem transformPoints_ok (config : ℝ × ℝ × ℝ) (reference : String) (dipole : Dipole) (inverse : Bool) (pts : List (ℝ × ℝ × ℝ))
    (f : ℝ → Option Base) (hf : referenceBase config reference dipole (pts.map fun p => p.2.2) = .ok ((pts.map fun p => p.2.2).map f)) :
    transformPoints config reference dipole inverse pts =
      .ok (pts.map fun p => (f p.2.2).map fun b => geoToBase p.1 p.2.1 b inverse) := by
  unfold transformPoints
  rw [hf, List.map_map]
  simp only [bind, Except.bind, pure, Except.pure]
  rw [List.zipWith_map_right, List.zipWith_self]
  rfl

/-- **C38** (transform_points). For every reference system, array of points, dipole and direction of the transformation: if the
call succeeds, then so does the opposite transformation of the results at the same times, and it returns the original
points (those with canonical coordinates off the poles whose base vectors are defined). -/
theorem C38_transform_points (config : ℝ × ℝ × ℝ) (reference : String) (dipole : Dipole) (inverse : Bool)
    (pts : List (ℝ × ℝ × ℝ)) (out : List (Option (ℝ × ℝ))) (h : transformPoints config reference dipole inverse pts = .ok out)
    (hall : ∀ o ∈ out, o ≠ none)
    (hcan : ∀ p ∈ pts, 0 < p.1 ∧ p.1 < 180 ∧ -180 < p.2.1 ∧ p.2.1 ≤ 180) :
    transformPoints config reference dipole (!inverse)
      (List.zipWith (fun o p => ((o.getD (0, 0)).1, (o.getD (0, 0)).2, p.2.2)) out pts) =
    .ok (pts.map fun p => some (p.1, p.2.1)) := by
  rcases ref_cases config reference dipole (pts.map fun p => p.2.2) with ⟨e, he⟩ | ⟨f, hf, hrh⟩
  · unfold transformPoints at h
    rw [he] at h
    cases h
  · rw [transformPoints_ok config reference dipole inverse pts f hf, Except.ok.injEq] at h
    subst h
    rw [List.zipWith_map_left, List.zipWith_self]
    have htimes : ∀ g : ℝ × ℝ × ℝ → ℝ × ℝ, (pts.map fun p => ((g p).1, (g p).2, p.2.2)).map (fun p => p.2.2) = pts.map fun p => p.2.2 := by
      intro g
      rw [List.map_map]; rfl
    have hf' := hf
    rw [← htimes (fun p => ((f p.2.2).map fun b => geoToBase p.1 p.2.1 b inverse).getD (0, 0))] at hf'
    rw [transformPoints_ok config reference dipole (!inverse) _ f hf', List.map_map]
    congr 1
    apply List.map_congr_left
    intro p hp
    simp only [Function.comp_apply]
    have hne := hall ((f p.2.2).map fun b => geoToBase p.1 p.2.1 b inverse) (List.mem_map.2 ⟨p, hp, rfl⟩)
    cases hfp : f p.2.2 with
    | none => rw [hfp] at hne; exact absurd rfl hne
    | some b =>
      simp only [Option.map_some, Option.getD_some]
      obtain ⟨c1, c2, c3, c4⟩ := hcan p hp
      rw [geoToBase_undo b (hrh _ _ hfp) p.1 p.2.1 inverse c1 c2 c3 c4]

/-- **C38** (meaning). The forward transformation returns canonical coordinates of the same point in the rotated system. -/
theorem C38_same_point (b : Base) (hb : RightHanded b.e1 b.e2 b.e3) (theta phi : ℝ) :
    ∃ theta' phi' : ℝ, geoToBase theta phi b false = (theta', phi') ∧ 0 ≤ theta' ∧ theta' ≤ 180 ∧ -180 < phi' ∧ phi' ≤ 180 ∧
      combine b.e1 b.e2 b.e3 (direction theta' phi') = direction theta phi := by
  obtain ⟨r1, r2, r3, r4⟩ := geoToBase_range b theta phi false
  exact ⟨_, _, rfl, r1, r2, r3, r4, geoToBase_forward b hb theta phi⟩

/-- **C38** (errors). Unknown reference systems raise ValueError. -/
theorem C38_unknown (config : ℝ × ℝ × ℝ) (reference : String) (dipole : Dipole) (inverse : Bool) (pts : List (ℝ × ℝ × ℝ))
    (h1 : reference ≠ "gsm") (h2 : reference ≠ "sm") (h3 : reference ≠ "mag") :
    transformPoints config reference dipole inverse pts = .error .valueError := by
  unfold transformPoints referenceBase
  rw [if_neg h1, if_neg h2, if_neg h3]
  rfl

end ChaosMagPy.Coord
