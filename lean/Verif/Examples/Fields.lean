import Verif.Props.Broadcast
import Verif.Props.Fourier
import Verif.Props.SynthPP
import Verif.Props.SynthArgs
/-!
# Concrete cases for C16–C21, C44, C61, C65, C66

Each example applies one theorem to concrete arguments for which all its hypotheses hold.
-/
namespace ChaosMagPy.Synth
open ChaosMagPy.Spec

/-- Two points. -/
noncomputable def exPts : List Point := [⟨6371.2, 60, 30, fun i => i⟩, ⟨7000, 100, 10, fun _ => 1⟩]

theorem exPts_theta : ∀ p ∈ exPts, 0 < p.theta ∧ p.theta < 180 := by
  intro p hp
  simp only [exPts, List.mem_cons, List.not_mem_nil, or_false] at hp
  rcases hp with rfl | rfl <;> norm_num

theorem exPts_theta' : ∀ p ∈ exPts, 0 ≤ p.theta ∧ p.theta ≤ 180 := fun p hp => ⟨(exPts_theta p hp).1.le, (exPts_theta p hp).2.le⟩

theorem exPts_radius : ∀ p ∈ exPts, p.radius ≠ 0 := by
  intro p hp
  simp only [exPts, List.mem_cons, List.not_mem_nil, or_false] at hp
  rcases hp with rfl | rfl <;> norm_num

/-- The field of degrees 1 and 2 at these points. -/
theorem exPts_ok (dim : ℕ) (h : 8 ≤ dim) : ∃ l, synthValues 6371.2 dim exPts (some (1 : ℕ)) (some (2 : ℕ)) (some ((2 : ℕ) : ℤ)) (some Source.internal.name) = .ok l ∧ l.length = 2 := by
  refine ⟨_, synthValues_succeeds 6371.2 (by norm_num) dim exPts 1 2 2 .internal (by norm_num) (by norm_num) (by simp [exPts]) exPts_theta' exPts_radius ?_, ?_⟩
  · exact le_trans (by decide) h
  · simp [exPts]

/-- C16_gradient at the first point. -/
example : ∃ Br Bt Bp : ℝ, HasDerivAt (fun r => pot .internal 6371.2 (fun i => (i : ℝ)) 1 2 2 r (rad 60) (rad 30)) (-Br) 6371.2 ∧
    HasDerivAt (fun t => pot .internal 6371.2 (fun i => (i : ℝ)) 1 2 2 6371.2 t (rad 30)) (-(6371.2 * Bt)) (rad 60) ∧
    HasDerivAt (fun y => pot .internal 6371.2 (fun i => (i : ℝ)) 1 2 2 6371.2 (rad 60) y) (-(6371.2 * Real.sin (rad 60) * Bp)) (rad 30) := by
  obtain ⟨l, h, hl⟩ := exPts_ok 8 le_rfl
  obtain ⟨⟨Br, Bt, Bp⟩, y, rfl⟩ := List.length_eq_two.1 hl
  have := C16_gradient 6371.2 (by norm_num) 8 exPts 1 2 2 .internal le_rfl (by norm_num) _ h 0 _ Br Bt Bp rfl rfl (by norm_num) (by norm_num) (by norm_num)
  exact ⟨Br, Bt, Bp, this.1, this.2.1, this.2.2.1⟩

/-- C17_columns: degrees 1 to 3 with orders up to 1 have nine columns. -/
example : designDim 1 3 1 = ∑ n ∈ Finset.Icc 1 3, (2 * min n 1 + 1) := C17_columns 1 3 1 (by norm_num) (by norm_num)

/-- C17_design_product. -/
example : ∃ dim rows, designGauss 6371.2 (exPts.map fun p => (p.radius, p.theta, p.phi)) 3 (some 2) (some 1) (some "external") = .ok (dim, rows) ∧
    rows.length = 2 := by
  obtain ⟨⟨dim, rows⟩, h⟩ : ∃ r, designGauss 6371.2 (exPts.map fun p => (p.radius, p.theta, p.phi)) 3 (some 2) (some 1) (some "external") = .ok r :=
    (C17_design_succeeds 6371.2 (by norm_num) _ (by simp [exPts])
      (by intro p hp
          simp only [exPts, List.map_cons, List.map_nil, List.mem_cons, List.not_mem_nil, or_false] at hp
          rcases hp with rfl | rfl <;> norm_num)
      (by intro p hp
          simp only [exPts, List.map_cons, List.map_nil, List.mem_cons, List.not_mem_nil, or_false] at hp
          rcases hp with rfl | rfl <;> norm_num) 3 2 1 "external").2 (by norm_num)
  exact ⟨dim, rows, h, (C17_design_product 6371.2 (by norm_num) exPts exPts_radius 3 (some 2) (some 1) (some "external") dim rows h).1⟩

/-- C18_linear: twice the field minus the field of constant coefficients. -/
example : ∃ l, synthValues 6371.2 8 (exPts.map fun p => { p with coeffs := fun i => 2 * p.coeffs i + (-1) * p.coeffs i }) (some (1 : ℕ)) (some (2 : ℕ))
    (some ((2 : ℕ) : ℤ)) (some Source.internal.name) = .ok l := by
  obtain ⟨l, h, -⟩ := exPts_ok 8 le_rfl
  have := C18_linear 6371.2 (by norm_num) 8 (exPts.map fun p => (p, p.coeffs)) (by
    intro p hp
    rw [List.mem_map] at hp
    obtain ⟨q, hq, rfl⟩ := hp
    exact exPts_radius q hq) (some (1 : ℕ)) (some (2 : ℕ)) (some ((2 : ℕ) : ℤ)) (some Source.internal.name) 2 (-1) l l
    h h
  rw [List.map_map] at this
  exact ⟨_, this⟩

/-- C18_additive_degrees: degree 1 and degrees 2 and 3. -/
example := C18_additive_degrees 6371.2 (by norm_num) 15 exPts (by simp [exPts]) exPts_theta' exPts_radius 1 1 3 3 .external le_rfl le_rfl (by norm_num) (by decide)

/-- C19_radial_scaling of degree 2. -/
example := C19_radial_scaling 6371.2 (by norm_num) 5 exPts (by simp [exPts]) exPts_theta' exPts_radius 2 2 .internal (by norm_num) (by norm_num) 2 (by norm_num)

/-- C20_infer_nmax: ten coefficients hold degree 2. -/
example := C20_infer_nmax 6371.2 10 exPts 1 2 none le_rfl (by norm_num) (by decide) (by decide)

/-- C20_infer_nmax_given_mmax: twelve coefficients with orders up to 1 hold degree 4. -/
example := C20_infer_nmax_given_mmax 6371.2 12 exPts 1 4 1 none le_rfl (by norm_num) (by norm_num) (by decide) (by decide)

/-- C20_infer_nothing: four coefficients of degree 2. -/
example : synthValues 6371.2 4 exPts (some (2 : ℕ)) none none none = .error .valueError := C20_infer_nothing 6371.2 4 exPts 2 none (by norm_num) (by norm_num)

/-- C20_errors at two points. -/
example : synthValues 6371.2 2 exPts (some (1 : ℕ)) (some (1 : ℕ)) (some ((1 : ℕ) : ℤ)) (some Source.internal.name) = .error .indexError :=
  (C20_errors 6371.2 (by norm_num) 2 exPts (by simp [exPts]) exPts_theta exPts_radius).2.2.2 1 1 1 .internal le_rfl le_rfl (by decide)

/-- C20_complete_field. -/
example : ∃ (l : List (ℝ × ℝ × ℝ)) (n0 n1 M : ℕ) (src : Source), 1 ≤ n0 ∧ n0 ≤ n1 ∧ windowSize n0 n1 M ≤ 10 ∧
    synthValues 6371.2 10 exPts (some n0) (some n1) (some M) (some src.name) = .ok l := by
  obtain ⟨l, h, -⟩ := exPts_ok 10 (by norm_num)
  exact ⟨l, C20_complete_field 6371.2 (by norm_num) 10 exPts exPts_radius _ _ _ _ l h⟩

/-- C20_surplus_ignored: the dipole part of longer coefficient vectors. -/
example := C20_surplus_ignored 6371.2 (by norm_num) 3 100 [(⟨6371.2, 60, 30, fun i => i⟩, fun i => if i < 3 then i else 77)]
  (by intro p hp; rw [List.mem_singleton] at hp; subst hp; norm_num) 1 1 1 .internal le_rfl le_rfl (by decide) (by decide) (by
    intro p hp i hi
    rw [List.mem_singleton] at hp
    subst hp
    have : i < 3 := lt_of_lt_of_le hi (by decide)
    simp [this])

/-- C21_colatitude_check. -/
example := C21_colatitude_check 6371.2 (by norm_num) 8 exPts exPts_radius 1 2 2 .internal le_rfl (by norm_num) (by decide)

/-- C21_pointwise: the second point alone. -/
example : ∃ B, synthValues 6371.2 8 [⟨7000, 100, 10, fun _ => 1⟩] (some (1 : ℕ)) (some (2 : ℕ)) (some ((2 : ℕ) : ℤ)) (some Source.internal.name) = .ok [B] := by
  obtain ⟨l, h, hl⟩ := exPts_ok 8 le_rfl
  obtain ⟨x, y, rfl⟩ := List.length_eq_two.1 hl
  exact ⟨y, C21_pointwise 6371.2 (by norm_num) 8 exPts 1 2 2 .internal le_rfl (by norm_num) _ h 1 _ y rfl rfl (by norm_num) (by norm_num) (by norm_num)⟩

end ChaosMagPy.Synth

namespace ChaosMagPy.SynthArr
open ChaosMagPy.NumPy
open ChaosMagPy.Synth (Error Source)

/-- Dipole coefficients at two epochs, radii and colatitudes at three places, longitudes. -/
noncomputable def exCoeffs : Arr ℝ := ⟨[2, 1, 3], fun i => (i.headD 0 : ℝ) - 30000⟩
noncomputable def exRadius : Arr ℝ := ⟨[3], fun _ => 6371.2⟩
noncomputable def exTheta : Arr ℝ := ⟨[3], fun i => 90 * (i.headD 0 : ℝ)⟩
noncomputable def exPhi : Arr ℝ := ⟨[], fun _ => 10⟩

/-- C61_broadcast: two epochs and three places. -/
example := C61_broadcast 6371.2 exCoeffs exRadius exTheta exPhi [2, 1] 3 rfl [2, 3] (by decide) (by decide) (some 1) none none none

/-- C61_field. -/
example := C61_field 6371.2 (by norm_num) exCoeffs exRadius exTheta exPhi [2, 1] 3 rfl [2, 3] (by decide) (by decide) 1 1 1 .internal le_rfl le_rfl (by decide)
  (fun i _ => by norm_num [exRadius]) (fun i hi => by
    have h3 : i.length = 1 ∧ i.headD 0 < 3 := by
      simp only [exTheta] at hi
      cases hi with
      | cons h1 h2 => cases h2; exact ⟨rfl, h1⟩
    have : ((i.headD 0 : ℕ) : ℝ) ≤ 2 := by exact_mod_cast (by omega : i.headD 0 ≤ 2)
    have h0 : (0 : ℝ) ≤ ((i.headD 0 : ℕ) : ℝ) := Nat.cast_nonneg _
    simp only [exTheta]
    constructor <;> linarith)

/-- C61_grid: three colatitudes and five longitudes. -/
example (c : Arr ℝ) (hc : c.shape = [] ++ [3]) := C61_grid 6371.2 c ⟨[3, 1], fun _ => 6371.2⟩ exTheta ⟨[5], fun i => 72 * (i.headD 0 : ℝ)⟩ [] [] 3 5 hc rfl [3, 5]
  (by decide) (by decide) (some 1) none none none

/-- C61_shape_error: radii at two and colatitudes at three places. -/
example : synthValues 6371.2 ⟨[3], fun _ => 1⟩ ⟨[2], fun _ => 6371.2⟩ ⟨[3], fun _ => 90⟩ exPhi (some 1) (some 1) (some 1) none none = .error .valueError :=
  (C61_shape_error 6371.2 ⟨[3], fun _ => 1⟩ ⟨[2], fun _ => 6371.2⟩ ⟨[3], fun _ => 90⟩ exPhi [] 3 rfl (some 1) (some 1) (some 1) none 1 1 1
    (Synth.resolve_explicit 3 1 1 1 le_rfl le_rfl) ⟨false, (Synth.checkColat_ok _ _).2 (by
      rw [show (Arr.data ⟨[3], fun _ => (90 : ℝ)⟩) = [90, 90, 90] from rfl]
      refine ⟨List.cons_ne_nil _ _, Or.inl ⟨rfl, ?_⟩⟩
      norm_num)⟩).1 (by decide)

end ChaosMagPy.SynthArr

namespace ChaosMagPy.Fourier

/-- C44_filter: one of the two components of the series 1, 0, 0 is kept. -/
example := C44_filter 3 (by norm_num) 1 one_pos 1 (by decide) true (.py true) rfl (fun _ => 1) _ [0, 1] ex_argsort

/-- C44_response_degree: the coefficient number 7 has degree 2. -/
example : responseIndex 7 = ((2 : ℕ) : ℤ) - 1 := C44_response_degree 2 7 (by norm_num) (by norm_num) (by norm_num)

/-- C44_sampling, C44_start_date, C44_unscaled_file: the series 1, 0, 0 in steps of one hour. -/
example := C44_sampling 3 (by norm_num) 1 one_pos true (.array true) ⟨rfl, rfl⟩ _ [0, 1] ex_argsort
example := C44_start_date 3 (by norm_num) (by norm_num) 1 one_pos true (.array true) ⟨rfl, rfl⟩ _ [0, 1] ex_argsort 1
example := C44_unscaled_file 3 (by norm_num) 1 one_pos _ [0, 1] ex_argsort

/-- C44_vector_refused: two times and three frequencies. -/
example (f : ℕ → ℝ) (z : ℕ → ℕ → ℕ → ℂ) := C44_vector_refused 2 3 (by norm_num) (by norm_num) (by norm_num) f z (.py true) 5

end ChaosMagPy.Fourier

namespace ChaosMagPy.SynthPP
open ChaosMagPy.PPoly (PP Base Extrap first last Proper IsPiece Ascending)
open ChaosMagPy.Chaos (Pt Val Model fieldOfRows clipNmax ofPPoly MinusGradient)
open ChaosMagPy.NumPy (Arr Valid)
open ChaosMagPy.Spec
open ChaosMagPy.Synth (Source)

theorem ex_asc : Ascending [(0 : ℝ), 1, 3] := by
  refine ⟨by simp, ?_⟩
  intro j hj
  have hj' : j < 2 := by simp only [List.length_cons, List.length_nil] at hj; omega
  interval_cases j <;> norm_num

/-- C65_field: one time inside and one outside. -/
example (c : ℕ → ℕ → ℕ → ℝ) := C65_field 6371.2 (by norm_num) [0, 1, 3] ex_asc 7 3 (by norm_num) 1 le_rfl c [⟨2, 6371.2, 60, 30⟩, ⟨4, 7000, 0, 10⟩] (by simp)
  (by intro p hp
      simp only [List.mem_cons, List.not_mem_nil, or_false] at hp
      rcases hp with rfl | rfl <;> (refine ⟨?_, ?_, ?_⟩ <;> norm_num)) none (by simp) .internal (some 1)

/-- C65_pieces: three break points and three pieces. -/
example (c : ℕ → ℕ → ℕ → ℝ) : synthFromPP 6371.2 [0, 1, 3] 3 3 3 3 c [⟨2, 6371.2, 60, 30⟩] none none none = .error .valueError :=
  C65_pieces 6371.2 [0, 1, 3] 3 3 3 3 c _ none none none (by norm_num)

/-- C65_same. -/
example (c : ℕ → ℕ → ℕ → ℝ) := C65_same 6371.2 { breaks := [0, 1, 3], order := 3, dim := 3, coeffs := some c } c rfl (by norm_num) (by norm_num) (by norm_num) "internal" 7
  [⟨2, 6371.2, 60, 30⟩] (by simp) none none (.bool false) (Or.inl rfl)

/-- C66_axis_error: axis 2 of a matrix. -/
example : powerSpectrumArr 6371.2 ⟨[2, 3], fun _ => 1⟩ none none none (some 2) = .error .indexError :=
  C66_axis_error 6371.2 ⟨[2, 3], fun _ => 1⟩ none (by simp) none none (some 2) (Or.inr (by norm_num))

/-- C66_model, C66_parseval: a constant model of degree 1. -/
example : ∃ W, modelSpectrum 6371.2 ⟨Base.init [0, 1] none 1 3 fun _ _ d => if d = 0 then 5 else 0, "internal"⟩ [1 / 2] none none none none = .ok W ∧ W.length = 1 := by
  obtain ⟨rows, h, -⟩ := ex_coeffs
  obtain ⟨W, h1, h2, -⟩ := C66_model 6371.2 (by norm_num) ⟨_, "internal"⟩ (Or.inl rfl) 1 rfl [1 / 2] none (by simp) none none none 3 _ h
  exact ⟨W, h1, h2⟩

example : ∃ (F : ℝ → ℝ → ℝ) (w : List ℝ), modelSpectrum 6371.2 ⟨Base.init [0, 1] none 1 3 fun _ _ d => if d = 0 then 5 else 0, "internal"⟩ [1 / 2] (some 7000) none none none =
    .ok [some (w.map some)] ∧ w.sum = sphereMean fun x y => F (degrees x) (degrees y) := by
  classical
  obtain ⟨rows, h, -⟩ := ex_coeffs
  let m : Model := ⟨Base.init [0, 1] none 1 3 fun _ _ d => if d = 0 then 5 else 0, "internal"⟩
  let F : ℝ → ℝ → ℝ := fun θ φ => if h : ∃ b, m.synthValues 6371.2 [⟨1 / 2, 7000, θ, φ⟩] none none none = .ok [some b] then h.choose.1 ^ 2 + h.choose.2.1 ^ 2 + h.choose.2.2 ^ 2 else 0
  obtain ⟨-, w, h1, -, h2⟩ := C66_parseval 6371.2 (by norm_num) m .internal rfl 1 rfl le_rfl (1 / 2) 7000 (by norm_num) none none (by simp) none 3 rows h F (by
    intro θ φ b _ _ hb
    have hex : ∃ b, m.synthValues 6371.2 [⟨1 / 2, 7000, θ, φ⟩] none none none = .ok [some b] := ⟨b, hb⟩
    have := Except.ok.inj (hb.symm.trans hex.choose_spec)
    simp only [List.cons.injEq, Option.some.injEq, and_true] at this
    simp only [F, dif_pos hex, ← this])
  exact ⟨F, w, h1, h2⟩

end ChaosMagPy.SynthPP
