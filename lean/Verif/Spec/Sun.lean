import Verif.Spec.Coord
/-!
# Specification of the position of the sun (C42, C54)

The low-precision theory of the appendix of Russell (1971), which the docstring of `sun_position` refers to, in degrees and
without any reduction of angles. `t` is the time in days since 2000-01-01 0h.
-/
namespace ChaosMagPy.Spec

/-- Days since noon of 1899-12-31 (36524.5 days before 2000-01-01 0h). -/
noncomputable def dj (t : ℝ) : ℝ := t + 36524.5

/-- Obliquity of the ecliptic (degrees). -/
noncomputable def sunObliquity (t : ℝ) : ℝ := 23.45229 - 0.0130125 * (dj t / 36525)

/-- Mean anomaly (degrees). -/
noncomputable def sunAnomaly (t : ℝ) : ℝ := 358.475845 + 0.985600267 * dj t

/-- Ecliptic longitude of the sun: mean longitude, equation of center and aberration (degrees). -/
noncomputable def sunLongitude (t : ℝ) : ℝ :=
  279.696678 + 0.9856473354 * dj t + (1.91946 - 0.004789 * (dj t / 36525)) * Real.sin (sunAnomaly t * Real.pi / 180) +
    0.020094 * Real.sin (2 * sunAnomaly t * Real.pi / 180) - 0.005686

/-- Greenwich mean sidereal time (degrees): one extra turn per year on top of the turns of the day. -/
noncomputable def greenwich (t : ℝ) : ℝ := 279.690983 + 0.9856473354 * dj t + 360 * t + 180

/-- Direction in equatorial coordinates of a point of the ecliptic with the given longitude. -/
noncomputable def eclipticToEquatorial (obliq long : ℝ) : Fin 3 → ℝ :=
  ![Real.cos (long * Real.pi / 180), Real.sin (long * Real.pi / 180) * Real.cos (obliq * Real.pi / 180),
    Real.sin (long * Real.pi / 180) * Real.sin (obliq * Real.pi / 180)]

/-- Components in a system that is rotated about the third axis by the angle (degrees). -/
noncomputable def rotateAxis (angle : ℝ) (v : Fin 3 → ℝ) : Fin 3 → ℝ :=
  ![Real.cos (angle * Real.pi / 180) * v 0 + Real.sin (angle * Real.pi / 180) * v 1,
    -Real.sin (angle * Real.pi / 180) * v 0 + Real.cos (angle * Real.pi / 180) * v 1, v 2]

/-- Direction of the sun in geographic coordinates. -/
noncomputable def sunDir (t : ℝ) : Fin 3 → ℝ := rotateAxis (greenwich t) (eclipticToEquatorial (sunObliquity t) (sunLongitude t))

end ChaosMagPy.Spec
