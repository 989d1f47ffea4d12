import Verif.Props.CoordVec
import Verif.Props.Geodetic
import Verif.Props.RotateGood
import Verif.Props.Rotation
import Verif.Props.Sun
/-!
# Concrete cases for C36–C39, C42, C43, C45, C54, C57

Each example applies one theorem to concrete arguments for which all its hypotheses hold.
-/
namespace ChaosMagPy.Analysis
open ChaosMagPy.Spec ChaosMagPy.Coord Finset

/-- C45_degree_zero. -/
example : ∃ leggauss : ℕ → List (ℝ × ℝ), shAnalysis leggauss (fun theta phi => theta + phi) 0 (some 3) = .error .indexError := by
  obtain ⟨f, hf⟩ := C45_gauss_rule
  exact ⟨f, C45_degree_zero f _ (some 3) (by
    intro h
    have := (hf (max 0 ((some 3).getD 0) + 1)).2
    rw [h] at this
    simp at this)⟩

/-- The axes exchanged cyclically. -/
def exCyclic : Base := ⟨![0, 0, 1], ![1, 0, 0], ![0, 1, 0]⟩

theorem exCyclic_rightHanded : RightHanded exCyclic.e1 exCyclic.e2 exCyclic.e3 := by
  refine ⟨?_, ?_, ?_, ?_, ?_, ?_, ?_⟩ <;> simp [exCyclic, dot, vecProd]

/-- The matrix for these axes, of degree 3 by 2. -/
theorem ex_rotate : ∃ (f : ℕ → List (ℝ × ℝ)) (M : List (List ℝ)), (∀ n, GaussRule n (f n)) ∧ rotateGauss f 3 2 exCyclic = .ok M := by
  obtain ⟨f, hf⟩ := C45_gauss_rule
  obtain ⟨M, hM, -⟩ := C57_shape (b := exCyclic) (nmax := 3) (kmax := 2) (by omega) (by omega) (hf _).1 exCyclic_rightHanded
  exact ⟨f, M, fun n => (hf n).1, hM⟩

/-- C57_blocks: coefficients of degree 3 do not come from degree 2; C57_rotation, C57_potential: the direction `(90, 0)` of the rotated
system is `(0, 0)`, as the first base vector is the geographic axis. -/
example : ∃ (f : ℕ → List (ℝ × ℝ)) (M : List (List ℝ)), rotateGauss f 3 2 exCyclic = .ok M ∧ (M.getD 4 []).getD 9 0 = 0 ∧
    (∀ c, degreePart (matVec M c) 3 0 0 = 0) ∧ (∀ c, degreePart (matVec M c) 2 0 0 = degreePart c 2 90 0) ∧
    ∀ c, potInt 6371.2 (matVec M c) 1 2 2 7000 (rad 0) (rad 0) = potInt 6371.2 c 1 2 2 7000 (rad 90) (rad 0) := by
  obtain ⟨f, M, hf, hM⟩ := ex_rotate
  have hp : combine exCyclic.e1 exCyclic.e2 exCyclic.e3 (direction 90 0) = direction 0 0 := by
    funext i
    have : (90 : ℝ) * Real.pi / 180 = Real.pi / 2 := by ring
    fin_cases i <;> simp [combine, exCyclic, direction, this]
  refine ⟨f, M, hM, ?_, fun c => ?_, fun c => ?_, fun c => ?_⟩
  · exact C57_blocks (by omega) (by omega) (hf _) exCyclic_rightHanded hM 3 2 9 4 (by omega) (by omega) (by omega) (by omega) (by omega)
      ⟨by omega, by omega⟩ ⟨by omega, by omega⟩
  · rw [C57_rotation (by omega) (by omega) (hf _) exCyclic_rightHanded hM c _ _ _ _ hp 3 (by omega) (by omega), if_neg (by omega)]
  · rw [C57_rotation (by omega) (by omega) (hf _) exCyclic_rightHanded hM c _ _ _ _ hp 2 (by omega) (by omega), if_pos (by omega)]
  · exact (C57_potential (by omega) (by omega) (hf _) exCyclic_rightHanded hM c 6371.2 7000 0 0 90 0 hp 2 (by omega)).2

/-- C57_identity: degree 2. -/
example : ∃ (f : ℕ → List (ℝ × ℝ)) (M : List (List ℝ)), rotateGauss f 2 2 ⟨![1, 0, 0], ![0, 1, 0], ![0, 0, 1]⟩ = .ok M ∧
    ∀ c, matVec M c 5 = c 5 := by
  obtain ⟨f, hf⟩ := C45_gauss_rule
  obtain ⟨M, hM, -⟩ := C57_shape (b := ⟨![1, 0, 0], ![0, 1, 0], ![0, 0, 1]⟩) (nmax := 2) (kmax := 2) (by omega) (by omega) (hf _).1
    (by refine ⟨?_, ?_, ?_, ?_, ?_, ?_, ?_⟩ <;> simp [dot, vecProd])
  exact ⟨f, M, hM, fun c => C57_identity (by omega) (hf _).1 hM c 5 (by omega)⟩

/-- C57_compose: the cyclic exchange twice. -/
example : ∃ (f : ℕ → List (ℝ × ℝ)) (M1 M : List (List ℝ)), rotateGauss f 2 2 exCyclic = .ok M1 ∧
    rotateGauss f 2 2 (composed exCyclic exCyclic) = .ok M ∧ ∀ c, matVec M c 7 = matVec M1 (matVec M1 c) 7 := by
  obtain ⟨f, hf⟩ := C45_gauss_rule
  obtain ⟨M1, h1, -⟩ := C57_shape (b := exCyclic) (nmax := 2) (kmax := 2) (by omega) (by omega) (hf _).1 exCyclic_rightHanded
  obtain ⟨M, hM, -⟩ := C57_shape (b := composed exCyclic exCyclic) (nmax := 2) (kmax := 2) (by omega) (by omega) (hf _).1
    (composed_rightHanded exCyclic_rightHanded exCyclic_rightHanded)
  exact ⟨f, M1, M, h1, hM, fun c => C57_compose (by omega) (hf _).1 exCyclic exCyclic exCyclic_rightHanded exCyclic_rightHanded M1 M1 M h1 h1 hM c 7
    (by omega)⟩

/-- C57_degree_zero. -/
example : ∃ f : ℕ → List (ℝ × ℝ), rotateGauss f 0 2 exCyclic = .error .indexError := by
  obtain ⟨f, hf⟩ := C45_gauss_rule
  exact ⟨f, C57_degree_zero 0 2 exCyclic (Or.inl rfl) (by
    intro h
    have := (hf ((0 + 2 + 1) / 2 + 1)).2
    rw [h] at this
    simp at this)⟩

end ChaosMagPy.Analysis

namespace ChaosMagPy.Coord
open ChaosMagPy.Spec

/-- C36_vectors, C36_undo: the point and vector of `ex_vectors`. -/
example : ∃ o, transformVectors (0, 0, 0) "mag" (.tuple [90, 0]) false [((45, 90), (1, 2), 0)] = .ok (some [o]) ∧
    o.2.1 ^ 2 + o.2.2 ^ 2 = 5 ∧
    transformVectors (0, 0, 0) "mag" (.tuple [90, 0]) true [(o.1, o.2, 0)] = .ok (some [((45, 90), (1, 2))]) := by
  obtain ⟨out, h⟩ := ex_vectors
  obtain ⟨bases, -, hl, hall⟩ := C36_vectors _ _ _ _ _ _ h
  obtain ⟨o, rfl⟩ := List.length_eq_one_iff.1 hl
  obtain ⟨b, -, -, -, -, hn⟩ := hall 0 _ o rfl rfl
  refine ⟨o, h, hn.trans (by norm_num), ?_⟩
  exact C36_undo _ _ _ _ _ _ h (by
    intro p hp
    rw [List.mem_singleton] at hp
    subst hp
    norm_num)

/-- C36_unknown, C38_unknown: a misspelt system. -/
example : transformVectors (0, 0, 1) "GSM" .none false [((45, 90), (1, 2), 0)] = .error .valueError :=
  C36_unknown _ _ _ _ _ (by decide) (by decide) (by decide)
example : transformPoints (0, 0, 1) "GSM" .none false [(45, 90, 0)] = .error .valueError :=
  C38_unknown _ _ _ _ _ (by decide) (by decide) (by decide)

/-- C37_gsm, C37_sm: at every time of ten million days the dipole axis `(0, 0, 1)` is not parallel to the Sun. -/
example (t : ℝ) (h1 : -10000000 ≤ t) (h2 : t ≤ 10000000) : ∃ b g, baseSm t ![0, 0, 1] = some b ∧ baseGsm t ![0, 0, 1] = some g ∧
    b.e3 = ![0, 0, 1] ∧ g.e1 = sunDirection t ∧ b.e2 = g.e2 := by
  have hv : dot ![0, 0, 1] ![0, 0, 1] = 1 := by simp [dot]
  have hc : cross ![0, 0, 1] (sunDirection t) ≠ 0 := by
    intro hc
    have h := RotateFft.parallel_height _ _ hv (direction_unit _ _) hc
    have hl := RotateFft.sun_low t h1 h2
    have : sunDirection t 2 ^ 2 < (1 / 2) ^ 2 := by
      rw [← sq_abs (sunDirection t 2)]
      exact pow_lt_pow_left₀ hl (abs_nonneg _) (by norm_num)
    unfold sunDirection at this
    rw [← h] at this
    simp at this
    norm_num at this
  obtain ⟨g, hg, -, h1, -⟩ := (C37_gsm t _ hv).2 hc
  obtain ⟨b, g', hb, -, h3, -, -, hg', h4⟩ := (C37_sm t _ hv).2 hc
  obtain rfl := Option.some.inj (hg.symm.trans hg')
  exact ⟨b, g, hb, hg, h3, h1, h4⟩

/-- C37_use_poles: with and without the pole. -/
example : useCheck [0, 45] = false :=
  (C37_use_poles [0, 45] (by simp) (by
    intro t ht
    simp only [List.mem_cons, List.not_mem_nil, or_false] at ht
    rcases ht with rfl | rfl <;> norm_num)).2 ⟨0, by simp, Or.inl rfl⟩
example : useCheck [45, 90] ≠ false := by
  rw [Ne, C37_use_poles [45, 90] (by simp) (by
    intro t ht
    simp only [List.mem_cons, List.not_mem_nil, or_false] at ht
    rcases ht with rfl | rfl <;> norm_num)]
  rintro ⟨t, ht, h⟩
  simp only [List.mem_cons, List.not_mem_nil, or_false] at ht
  rcases ht with rfl | rfl <;> norm_num at h

/-- C38_same_point: the axes exchanged cyclically. -/
example := C38_same_point ⟨![0, 0, 1], ![1, 0, 0], ![0, 1, 0]⟩ (by refine ⟨?_, ?_, ?_, ?_, ?_, ?_, ?_⟩ <;> simp [dot, vecProd]) 45 90

/-- C38_transform_points: GSM coordinates of one point for the default dipole and back. -/
example : ∃ o : ℝ × ℝ, transformPoints (-29442.0, -1501.0, 4797.1) "gsm" .none false [(45, 90, 5000)] = .ok [some o] ∧
    transformPoints (-29442.0, -1501.0, 4797.1) "gsm" .none true [(o.1, o.2, 5000)] = .ok [some (45, 90)] := by
  obtain ⟨v, hv, ⟨b, hb⟩, -⟩ := RotateFft.C37_exists (-29442.0, -1501.0, 4797.1) (by norm_num) (by norm_num) 5000 (by norm_num) (by norm_num)
  have h : transformPoints (-29442.0, -1501.0, 4797.1) "gsm" .none false [(45, 90, 5000)] = .ok [some (geoToBase 45 90 b false)] := by
    have hs : sunPosition [5000] = .ok [sunPoint 5000] := (C42_window [5000]).1.2 (by simp; norm_num)
    have hk : sunCheck [5000] = true := by
      by_contra hk
      unfold sunPosition at hs
      rw [if_neg hk] at hs
      cases hs
    unfold transformPoints referenceBase
    rw [if_pos rfl, hv]
    simp [bind, Except.bind, pure, Except.pure, hb, hk]
  refine ⟨_, h, C38_transform_points _ _ _ _ _ _ h (by simp) (by
    intro p hp
    rw [List.mem_singleton] at hp
    subst hp
    norm_num)⟩

/-- C39: WGS84 axes, 400 km above the ground at geodetic colatitude 30, and radius 7000 km. -/
example := C39_gg_to_geo 6378.137 6356.752 400 30 (by norm_num) (by norm_num) (by norm_num) (by norm_num)
example := C39_geo_to_gg 6378.137 6356.752 7000 30 (by norm_num) (by norm_num) (by norm_num) (by norm_num) (by norm_num)
example := C39_poles 6378.137 6356.752 7000 (by norm_num) (by norm_num) (by norm_num)
example := C39_meaning 6378.137 6356.752 400 1 (by norm_num) (by norm_num)
example : geoToGg 6378.137 6356.752 (ggToGeo 6378.137 6356.752 (-300) 90).1 (ggToGeo 6378.137 6356.752 (-300) 90).2 = (-300, 90) := by
  refine C39_gg_geo_gg 6378.137 6356.752 (-300) 90 (by norm_num) (by norm_num) (by norm_num) (by norm_num) (by norm_num) ?_
  obtain ⟨hp, h0, -⟩ := C39_gg_to_geo 6378.137 6356.752 (-300) 90 (by norm_num) (by norm_num) (by norm_num) (by norm_num)
  have e := congrArg Prod.fst hp
  have hs : Real.sqrt ((6378.137 : ℝ) ^ 2) = 6378.137 := Real.sqrt_sq (by norm_num)
  simp only [geocentricPoint, geodeticPoint, primeVertical, sub_self, zero_mul, zero_div, Real.cos_zero, Real.sin_zero, mul_one, one_pow,
    zero_pow two_ne_zero, mul_zero, add_zero, hs] at e
  have hle := mul_le_mul_of_nonneg_left (Real.sin_le_one ((ggToGeo 6378.137 6356.752 (-300) 90).2 * Real.pi / 180)) h0
  rw [e] at hle
  norm_num at hle ⊢
  linarith

/-- C42_direction, C42_range, C54_zenith_angle. -/
example := C42_direction 5000 (by norm_num) (by norm_num)
example := C42_range [5000, -365243] [sunPoint 5000, sunPoint (-365243)] ((C42_window _).1.2 (by
  intro t ht
  simp only [List.mem_cons, List.not_mem_nil, or_false] at ht
  rcases ht with rfl | rfl <;> norm_num))
example : ∃ zeta, zenithAngle 5000 45 90 = .ok zeta := by
  obtain ⟨z, h, -⟩ := (C54_zenith_angle 5000 45 90 (by norm_num)).1 (by norm_num)
  exact ⟨z, h⟩
example : zenithAngle 40000 45 90 = .error .assertionError := (C54_zenith_angle 40000 45 90 (by norm_num)).2 (by norm_num)

/-- C43_length, C43_scaling. -/
example : dipoleToVec (0, 0, 1) (.tuple [1, 2, 3, 4]) = .error .valueError := C43_length _ _ (by simp) (by simp)
example := C43_scaling (0, 0, 1) (-29442) (-1501) 4797 1000 (by norm_num)

end ChaosMagPy.Coord
