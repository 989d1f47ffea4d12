import Verif.Model.FloatLegendre
/-!
# Model of `design_gauss` (`chaosmagpy/model_utils.py` 645-894) in double precision

For one point, with the rounding of every operation, as `Model/FloatLegendre.lean`.
-/
namespace ChaosMagPy.FloatLegendre
open ChaosMagPy.Spec ChaosMagPy.Legendre

section
variable (R : Rounding)

/-- The rows of the three matrices for one point (lines 840-842), by the number of the column. -/
structure Rows where
  radius : ℕ → F
  theta : ℕ → F
  phi : ℕ → F

/-- Loop variables of lines 844-892: the rows, `num` and `r_n`. -/
structure DSt where
  A : Rows
  num : ℕ
  rn : F

/-- An assignment to column `i`. -/
def put (f : ℕ → F) (i : ℕ) (v : F) : ℕ → F := fun k => if k = i then v else f k

/-- The integer factor of the radial component (lines 847-850, 860-865), which is exact. -/
noncomputable def radialFactor (internal : Bool) (n : ℕ) : F := if internal then some (R ((n : ℝ) + 1)) else some (R (-(n : ℝ)))

/-- The columns with `m = 0` (lines 847-854). -/
noncomputable def designZonal (e : Env) (n : ℕ) (s : DSt) : DSt :=
  let a := fmul R (fmul R (radialFactor R e.internal n) (e.T (n, 0))) s.rn
  let b := fmul R (fneg (e.T (0, n + 1))) s.rn
  ⟨⟨put s.A.radius s.num a, put s.A.theta s.num b, s.A.phi⟩, s.num + 1, s.rn⟩

/-- Body of the loop over `m` (lines 855-886). -/
noncomputable def designOrder (e : Env) (n : ℕ) (s : DSt) (m : ℕ) : DSt :=
  let cmp : F := some (e.cosine (R ((m : ℝ) * e.phi)))
  let smp : F := some (e.sine (R ((m : ℝ) * e.phi)))
  let a := fmul R (fmul R (radialFactor R e.internal n) (e.T (n, m))) s.rn
  let b := fmul R (fneg (e.T (m, n + 1))) s.rn
  let p := designPhi R e.cosine e.sine e.T e.theta e.phi s.rn n m
  ⟨⟨put (put s.A.radius s.num (fmul R a cmp)) (s.num + 1) (fmul R a smp), put (put s.A.theta s.num (fmul R b cmp)) (s.num + 1) (fmul R b smp),
    put (put s.A.phi s.num p.1) (s.num + 1) p.2⟩, s.num + 2, s.rn⟩

/-- Body of the loop over `n` (lines 845-892). -/
noncomputable def designDegree (e : Env) (mmax : ℕ) (s : DSt) (n : ℕ) : DSt :=
  let s := (pyRange 1 (min n mmax + 1)).foldl (designOrder R e n) (designZonal R e n s)
  { s with rn := if e.internal then fdiv R s.rn e.radius else fmul R s.rn e.radius }

/-- `design_gauss` at one point of an array of colatitudes within the bounds (lines 769-894): radius, colatitude and azimuth in kilometers and
degrees, degrees and source given, `rsurf` the reference radius. Simplification: the number of columns (`dim`) is not checked here, see C17. The
coefficients in `Env` are not used. -/
noncomputable def designPointF (cosine sin : ℝ → ℝ) (power : ℝ → ℤ → ℝ) (rsurf : ℝ) (internal : Bool) (nmin nmax mmax : ℕ) (radius theta phi : ℝ) :
    Except Error Rows :=
  match legendrePolyF R cosine nmax theta with
  | .error e => .error e
  | .ok T =>
    let ratio := R (radius / rsurf)
    .ok ((pyRange nmin (nmax + 1)).foldl (designDegree R ⟨internal, some ratio, theta, radians R phi, fun _ => some 0, T, cosine, sin⟩ mmax)
      ⟨⟨fun _ => some 0, fun _ => some 0, fun _ => some 0⟩, 0, rnInit internal power nmin ratio⟩).A

end

end ChaosMagPy.FloatLegendre
