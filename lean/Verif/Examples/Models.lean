import Verif.Props.ChaosArr
import Verif.Props.ChaosField
import Verif.Props.ChaosParts
import Verif.Props.ChaosShc
/-!
# Concrete cases for C32–C34, C55, C56, C60, C62

Each example applies one theorem to concrete arguments for which all its hypotheses hold.
-/
namespace ChaosMagPy.Chaos
open ChaosMagPy.Spec ChaosMagPy.Synth

/-- C32_all: internal and external field at one point. -/
example : ∃ BI BE B, call exEnv exChaos [exPt] none none (.str "internal") none = .ok BI ∧
    call exEnv exChaos [exPt] none none (.str "external") none = .ok BE ∧
    call exEnv exChaos [exPt] none none .none none = .ok B ∧ B.getD 0 none = total [BI.getD 0 none, BE.getD 0 none] := by
  obtain ⟨_, _, b, hI⟩ := ex_call (.str "internal")
  obtain ⟨_, _, c, hE⟩ := ex_call (.str "external")
  obtain ⟨B, h, _, h2⟩ := C32_all exEnv exChaos [exPt] none none none [b] [c] hI hE
  exact ⟨_, _, B, hI, hE, h, h2 0 (by simp)⟩

/-- C32_order: another order, a repetition and an unknown name. -/
example := C32_order exEnv exChaos [exPt] none none (.list ["sm", "tdep"]) (.list ["tdep", "sm", "sm", "crust"]) none
  (by simp [sourceNames, Sources.names])

/-- C32_unknown_silent. -/
example : call exEnv exChaos [exPt] none none (.list ["crust", "core"]) none = .ok [some (0, 0, 0)] :=
  C32_unknown_silent exEnv exChaos [exPt] none none ["crust", "core"] none (by decide)

/-- Three break points for the examples. -/
theorem ex_breaks : PPoly.Ascending [0, 5, 10] := by
  refine ⟨by simp, fun j hj => ?_⟩
  simp only [List.length_cons, List.length_nil] at hj
  have : j = 0 ∨ j = 1 := by omega
  rcases this with rfl | rfl <;> norm_num

/-- C32_static_constant: two coefficient rows; the value of the last one counts. -/
example := C32_static_constant [0, 5, 10] ex_breaks none none ⟨2, 3, fun i _ d => i + d⟩ (by norm_num) (by norm_num) none none none [0, 4] (by simp)
  (by
    intro t ht
    simp only [List.mem_cons, List.not_mem_nil, or_false] at ht
    rcases ht with rfl | rfl <;> norm_num [PPoly.first, PPoly.last]) none none

/-- C33_linear: the concrete model plus twice another one. -/
example : ∃ l, synthCoeffsGsm exEnv { exChaos with gsm := some ⟨3, fun i => 1 * 4 + 2 * (i : ℝ)⟩ } [5] none (some "external") = .ok (3, l) := by
  obtain ⟨l, h⟩ := ex_gsm [5] (by simp) .external
  have h' : ∃ l', synthCoeffsGsm exEnv { exChaos with gsm := some ⟨3, fun i => (i : ℝ)⟩ } [5] none (some Source.external.name) = .ok (3, l') := by
    refine ⟨_, (C33_result _ _ _ _ _ _).2 ⟨_, rfl, by simp [exChaos, Chaos.init], by simp, rfl, rfl, false, rfl, ?_, rfl⟩⟩
    rw [show (⟨3, fun i => (i : ℝ)⟩ : Gauss).dim = 1 * (1 + 2) from rfl, hdimN]
    rfl
  obtain ⟨l', h'⟩ := h'
  exact ⟨_, C33_linear exEnv exChaos [5] none (some "external") 3 (fun _ => 4) (fun i => (i : ℝ)) 1 2 3 l l' h h'⟩

/-- C33_truncation: a larger degree than the one of the model. -/
example : ∃ l, synthCoeffsGsm exEnv exChaos [5, 7] (some 4) (some "internal") = .ok (3, l) := by
  obtain ⟨l, h⟩ := ex_gsm [5, 7] (by simp) .internal
  exact ⟨l, (C33_truncation exEnv exChaos [5, 7] 4 (some "internal") 1 3 (fun _ => 4) l rfl rfl h).2⟩

theorem ex_ascending : PPoly.Ascending ([0, 10] : List ℝ) := ⟨by simp, fun j hj => by
  have : j = 0 := by simp at hj; omega
  subst this
  norm_num⟩

/-- C34_between, C34_nodes: values 1 and 3 at the times 0 and 10. -/
example := C34_between [0, 10] [1, 3] ex_ascending 0 (by simp) 4 (by norm_num) (by norm_num)
example : interp [0, 10] [1, 3] 10 = 3 := C34_nodes [0, 10] [1, 3] ex_ascending 1 (by simp)

/-- SM coefficients for a given RC value. -/
theorem ex_sm_rc (r : ℝ) : ∃ l, synthCoeffsSm exEnv exChaos [5] none (some "external") (some [r]) = .ok (3, l) :=
  ⟨_, (C34_result _ _ _ _ _ _ _).2 ⟨_, _, 1, false, _, rfl, rfl, by simp, rfl, le_rfl, rfl, rfl, rfl, Or.inl ⟨rfl, rfl⟩, rfl, rfl⟩⟩

/-- C34_affine: RC values 2 and 6, weight 1/4. -/
example : ∃ l, synthCoeffsSm exEnv exChaos [5] none (some "external") (some [1 / 4 * 2 + (1 - 1 / 4) * 6]) = .ok (3, l) := by
  obtain ⟨l, h⟩ := ex_sm_rc 2
  obtain ⟨l', h'⟩ := ex_sm_rc 6
  exact ⟨_, (C34_affine exEnv exChaos [5] none (some "external") [2] [6] (1 / 4) 3 3 l l' h h').2⟩

/-- C55_pointwise: two points, RC values given for the external part. -/
example := C55_pointwise exEnv (by norm_num [exEnv]) exChaos ex_good .none none (by simp) true false [(exPt, 2, 0), (exPt, 6, 0)] (by simp)
  (by simpa using exPt_valid)

/-- C56_model, C56_tdep: the time-dependent part at a point. -/
example : ∃ x B, exChaos.tdep = some x ∧ x.synthValues exEnv.rSurf [exPt] none none none = .ok B ∧
    synthValuesTdep exEnv exChaos [exPt] none none none = .ok B ∧ B.length = 1 := by
  obtain ⟨x, hx⟩ : ∃ x, exChaos.tdep = some x := ⟨_, rfl⟩
  obtain ⟨⟨c, hb⟩, -⟩ := ex_good x (Or.inl hx)
  obtain ⟨rowf, hrow⟩ := rows_pointwise x.base c hb
  obtain rfl : x = _ := (Option.some.inj hx).symm
  have h := hrow ([exPt].map Pt.time) (by simp)
  obtain ⟨B, h1, -⟩ := C56_model exEnv.rSurf (by norm_num [exEnv]) _ .internal rfl 1 rfl le_rfl [exPt] (by simp) (by simpa using exPt_valid) none
    (by simp) none none _ _ h
  obtain ⟨B', h2, hl, -⟩ := C56_tdep exEnv (by norm_num [exEnv]) exChaos _ hx .internal rfl 1 rfl le_rfl [exPt] (by simp)
    (by simpa using exPt_valid) none (by simp) none none _ _ ((ofPPoly_ok _ _).2 h)
  have : B' = B := by
    have := h2.symm.trans h1
    exact Except.ok.inj this
  subst this
  exact ⟨_, B', hx, h1, h2, hl⟩

/-- C60_tdep: the quadratic spline. -/
example : ∃ f, saveShc exShcChaos none = .ok (some f) ∧ ∃ m', LoadShc f m' ∧ m'.static = none := by
  obtain ⟨c, h⟩ := PPoly.exSpline_model
  obtain ⟨f, h1, _, ⟨m', h2⟩, h3⟩ := C60_tdep exShcChaos ⟨PPoly.exSpline, "internal"⟩ rfl h
  exact ⟨f, h1, m', h2, (h3 m' h2).1⟩

/-- C60_step: a step function on two intervals. -/
example := C60_step { exShcChaos with tdep := some ⟨_, "internal"⟩ } ⟨_, "internal"⟩ rfl PPoly.exStep_model

/-- C60_single_interval: a constant model with the number of the coefficient as value. -/
example := C60_single_interval { exShcChaos with tdep := exShcChaos.static } _ rfl 2 0 3 (fun d => (d : ℝ))
  ⟨rfl, by norm_num, rfl, rfl, by norm_num, _, rfl, fun _ => rfl⟩

end ChaosMagPy.Chaos

namespace ChaosMagPy.ChaosArr
open ChaosMagPy.Spec ChaosMagPy.Synth ChaosMagPy.Chaos ChaosMagPy.NumPy

/-- Three epochs, a scalar radius, four colatitudes and five longitudes. -/
noncomputable def exTime : Arr ℝ := ⟨[3, 1, 1], fun i => i.getD 0 0⟩
noncomputable def exRadius : Arr ℝ := ⟨[], fun _ => 6371.2⟩
noncomputable def exTheta : Arr ℝ := ⟨[4, 1], fun i => 10 * i.getD 0 0⟩
noncomputable def exPhi : Arr ℝ := ⟨[5], fun i => 20 * i.getD 0 0⟩

/-- C62_call, C62_parts: one RC value for each epoch. -/
example := C62_call exEnv exChaos exTime exRadius exTheta exPhi (some ⟨[3, 1, 1], fun i => i.getD 0 0⟩) none .none none [3, 4, 5] (by decide) (by decide)
  (by rintro r ⟨⟩; decide) (fun _ h => nomatch h)
example := C62_parts exEnv exChaos exTime exRadius exTheta exPhi (some ⟨[3, 1, 1], fun i => i.getD 0 0⟩) none [3, 4, 5] (by decide) (by decide)
  (by rintro r ⟨⟩; decide) (fun _ h => nomatch h) none none none none

/-- C62_static: no time. -/
example := C62_static exEnv exChaos exRadius exTheta exPhi [4, 5] (by decide) (by decide) none none none 0

/-- C62_grid: four colatitudes and five longitudes, one epoch. -/
example := C62_grid exEnv exChaos ⟨[], fun _ => 5⟩ exRadius ⟨[4], fun i => 10 * i.getD 0 0⟩ exPhi none none [] 5 rfl [4, 5] (by decide) (by decide)
  (fun _ h => nomatch h) (fun _ h => nomatch h) none none none none

/-- C62_shape_error: three epochs and four colatitudes. -/
example := C62_shape_error exEnv exChaos ⟨[3], fun i => i.getD 0 0⟩ ⟨[4], fun _ => 6371.2⟩ ⟨[4], fun _ => 10⟩ ⟨[4], fun _ => 20⟩ none none .none none (by decide)

/-- C62_rc_error: RC values in the shape of the result. -/
example := C62_rc_error exEnv exChaos exTime exRadius exTheta exPhi none none none none ⟨[3, 4, 5], fun _ => 1⟩ (by decide)

end ChaosMagPy.ChaosArr
