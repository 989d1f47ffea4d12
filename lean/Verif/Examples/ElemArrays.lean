import Verif.Props.GeodArr
import Verif.Examples.CoordArrays
/-!
# Concrete cases for C79

Each example applies one theorem to concrete arguments for which all its hypotheses hold.
-/
namespace ChaosMagPy.ElemArr
open ChaosMagPy.Synth (Error)
open ChaosMagPy.NumPy ChaosMagPy.CoordArr ChaosMagPy.Spec

/-- C79_zenith: two places at three times. -/
example : ∃ a, zenithAngle exTime exTheta (scalar 10) = .ok a ∧ a.shape = [3, 2] ∧
    ∃ z, Coord.zenithAngle (exTime.at [2, 1]) (exTheta.at [2, 1]) 10 = .ok z ∧ a.get [2, 1] = some z := by
  obtain ⟨a, h1, h2, h3⟩ := ((C79_zenith exTime exTheta (scalar 10)).1 exTime_early).1 (by decide)
  have hs : a.shape = [3, 2] := (Option.some.inj h2).symm.trans (by decide)
  exact ⟨a, h1, hs, h3 [2, 1] (by rw [hs]; simp [Valid])⟩

/-- C79_zenith: shapes that do not fit, and a time after 2099. -/
example : zenithAngle (⟨[2], fun _ => 0⟩) (⟨[3], fun _ => 90⟩) (scalar 0) = .error .valueError ∧
    zenithAngle (⟨[2], fun i => if i = [0] then 0 else 40000⟩) exTheta (scalar 0) = .error .assertionError :=
  ⟨((C79_zenith _ _ _).1 (fun _ _ => by norm_num)).2 (by decide), (C79_zenith _ _ _).2 [1] (by simp [Valid]) (by norm_num)⟩

/-- C79_local_time: a row of times and a column of longitudes. -/
example : ∃ a, localTime ⟨[2], fun _ => 0.5⟩ ⟨[3, 1], fun _ => 90⟩ = .ok a ∧ a.shape = [3, 2] ∧ a.get [2, 1] = some (Coord.localTime 0.5 90) := by
  obtain ⟨a, h1, h2, h3⟩ := (C79_local_time ⟨[2], fun _ => 0.5⟩ ⟨[3, 1], fun _ => 90⟩).1 (by decide)
  have hs : a.shape = [3, 2] := (Option.some.inj h2).symm.trans (by decide)
  exact ⟨a, h1, hs, h3 [2, 1] (by rw [hs]; simp [Valid]) trivial⟩

/-- C79_azimuth: two angles. -/
example : (centerAzimuth ⟨[2], fun i => if i = [0] then 270 else 180⟩).shape = [2] ∧ ∃ k : ℤ, (centerAzimuth ⟨[2], fun i => if i = [0] then 270 else 180⟩).get [0] = 270 + 360 * k := by
  obtain ⟨h1, h2⟩ := C79_azimuth ⟨[2], fun i => if i = [0] then 270 else 180⟩
  obtain ⟨-, -, k, hk⟩ := h2 [0]
  exact ⟨h1, k, by rw [hk]; simp⟩

/-- C79_to_cartesian: a row of longitudes; the third coordinate is a number. -/
example : ∃ x y z, sphericalToCartesian (scalar 2) (scalar 60) ⟨[4], fun i => 90 * i.headD 0⟩ = .ok (x, y, z) ∧ x.shape = [4] ∧ y.shape = [4] ∧ z.shape = [] := by
  obtain ⟨⟨x, y, z⟩, h1, h2, h3, h4⟩ := (C79_to_cartesian (scalar 2) (scalar 60) ⟨[4], fun i => 90 * i.headD 0⟩).1 (by decide)
  exact ⟨x, y, z, h1, (Option.some.inj h2.1).symm.trans (by decide), (Option.some.inj h3.1).symm.trans (by decide), (Option.some.inj h4.1).symm.trans (by decide)⟩

/-- C79_to_spherical: a row of points on a vertical line; the longitude is a number. -/
example : ∃ r t p, cartesianToSpherical (scalar 1) (scalar 0) ⟨[4], fun i => i.headD 0⟩ = .ok (r, t, p) ∧ t.shape = [4] ∧ p.shape = [] ∧
    t.get [0] = some ((Coord.cartesianToSpherical ![1, 0, 0]).2.1) := by
  obtain ⟨⟨r, t, p⟩, h1, h2, h3, h4⟩ := (C79_to_spherical (scalar 1) (scalar 0) ⟨[4], fun i => i.headD 0⟩).1 (by decide)
  have hs : t.shape = [4] := (Option.some.inj h3.1).symm.trans (by decide)
  refine ⟨r, t, p, h1, hs, (Option.some.inj h4.1).symm.trans (by decide), ?_⟩
  have e : (⟨[4], fun i => i.headD 0⟩ : Arr ℝ).at [0] = 0 := by
    show (((proj [4] [0]).headD 0 : ℕ) : ℝ) = 0
    have : (proj [4] [0]).headD 0 = 0 := by decide
    rw [this]
    norm_num
  have := h3.2 [0] (by rw [hs]; simp [Valid]) trivial
  beta_reduce at this
  rw [e] at this
  exact this

/-- C79_basevectors_gg: two by three pairs of angles. -/
example : ∃ g, baseGg (ofReal ⟨[2, 1], fun _ => 50⟩) (ofReal ⟨[3], fun _ => 49.9⟩) = .ok g ∧ g.1.shape = [2, 3, 3] ∧
    g.1.get [1, 2, 0] = some ((Coord.baseGg 50 49.9).e1 0) := by
  obtain ⟨g, h1, S, h2, h3, -, -, h4⟩ := (C79_basevectors_gg ⟨[2, 1], fun _ => 50⟩ ⟨[3], fun _ => 49.9⟩).1 (by decide)
  have hs : S = [2, 3] := (Option.some.inj h2).symm.trans (by decide)
  subst hs
  exact ⟨g, h1, h3, (h4 [1, 2] (by simp [Valid]) 0).1⟩

/-- C79_gg_to_geo: two heights and three colatitudes with components in WGS84; a single component is not used; shapes that do not fit. -/
example : (∃ r c, ggToGeo 6378.137 6356.752 ⟨[2, 1], fun _ => 400⟩ ⟨[3], fun _ => 40⟩ (some (scalar 20000)) (some (scalar 45000)) = .ok r ∧ r.first.shape = [2, 3] ∧
      r.components = some c ∧ c.1.shape = [2, 3] ∧ c.1.get [1, 2] = some (Coord.ggToGeoVec 6378.137 6356.752 400 40 20000 45000).2.1) ∧
    (∃ r, ggToGeo 6378.137 6356.752 (scalar 400) ⟨[3], fun _ => 40⟩ (some (scalar 20000)) none = .ok r ∧ r.components = none) ∧
    ggToGeo 6378.137 6356.752 ⟨[2], fun _ => 400⟩ ⟨[3], fun _ => 40⟩ none none = .error .valueError := by
  refine ⟨?_, ?_, ?_⟩
  · obtain ⟨r, h1, h2, c, h3, h4, -⟩ := (C79_gg_to_geo 6378.137 6356.752 (by norm_num) (by norm_num) ⟨[2, 1], fun _ => 400⟩ ⟨[3], fun _ => 40⟩ (scalar 20000) (scalar 45000)).2.1
      (by decide)
    have hs : c.1.shape = [2, 3] := (Option.some.inj h4.1).symm.trans (by decide)
    exact ⟨r, c, h1, (Option.some.inj h2.1.1).symm.trans (by decide), h3, hs, h4.2 [1, 2] (by rw [hs]; simp [Valid]) trivial⟩
  · obtain ⟨r, h1, h2, -⟩ := ((C79_gg_to_geo 6378.137 6356.752 (by norm_num) (by norm_num) (scalar 400) ⟨[3], fun _ => 40⟩ (scalar 0) (scalar 0)).1 (some (scalar 20000)) none
      (Or.inr rfl)).1 (by decide)
    exact ⟨r, h1, h2⟩
  · exact ((C79_gg_to_geo 6378.137 6356.752 (by norm_num) (by norm_num) _ _ (scalar 0) (scalar 0)).1 none none (Or.inl rfl)).2 (by decide)

/-- C79_geo_to_gg: a point at the surface and the centre of the Earth; the first is not affected by the second. -/
example : ∃ r, geoToGg 6378.137 6356.752 ⟨[2], fun i => if i = [0] then 6371.2 else 0⟩ (scalar 40) none none = .ok r ∧ r.first.shape = [2] ∧
    r.first.get [0] = some (Coord.geoToGg 6378.137 6356.752 6371.2 40).1 := by
  obtain ⟨r, h1, -, h2, -⟩ := ((C79_geo_to_gg 6378.137 6356.752 (by norm_num) (by norm_num) ⟨[2], fun i => if i = [0] then 6371.2 else 0⟩ (scalar 40) (scalar 0) (scalar 0)).1
    none none (Or.inl rfl)).1 (by decide)
  have hs : r.first.shape = [2] := (Option.some.inj h2.1).symm.trans (by decide)
  have e : (⟨[2], fun i => if i = [0] then 6371.2 else 0⟩ : Arr ℝ).at [0] = 6371.2 := by
    show (if proj [2] [0] = [0] then (6371.2 : ℝ) else 0) = 6371.2
    rw [if_pos (by decide)]
  refine ⟨r, h1, hs, ?_⟩
  have := h2.2 [0] (by rw [hs]; simp [Valid]) ⟨by show (0 : ℝ) ≤ 40; norm_num, by show (40 : ℝ) ≤ 180; norm_num, by rw [e]; norm_num⟩
  beta_reduce at this
  rw [e] at this
  exact this

end ChaosMagPy.ElemArr
