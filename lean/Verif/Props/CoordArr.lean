import Verif.Lemmas.CoordArrBase
import Verif.Props.CoordVec
import Verif.Props.Sun
/-!
# C77: arrays in coordinate transformations
-/
namespace ChaosMagPy.CoordArr
open ChaosMagPy.Synth (Error)
open ChaosMagPy.NumPy
open ChaosMagPy.Coord (Vec)

@[simp] theorem nan2_none_left (f : ℝ → ℝ → ℝ) (b : Num) : nan2 f none b = none := rfl
@[simp] theorem nan2_none_right (f : ℝ → ℝ → ℝ) (a : Num) : nan2 f a none = none := by cases a <;> rfl
@[simp] theorem nan2_some (f : ℝ → ℝ → ℝ) (a b : ℝ) : nan2 f (some a) (some b) = some (f a b) := rfl

theorem sunCheck_iff (times : List ℝ) : Coord.sunCheck times = true ↔ ∀ t ∈ times, t < 36159.75 := by
  rw [← (Coord.C42_window times).1]
  unfold Coord.sunPosition
  by_cases h : Coord.sunCheck times = true
  · rw [if_pos h]; simp [h]
  · rw [if_neg h]; simp [h]

theorem sunCheck_arr (time : Arr ℝ) (ht : ∀ i, Valid time.shape i → time.get i < 36159.75) : Coord.sunCheck time.data = true := by
  rw [sunCheck_iff]
  intro t h
  obtain ⟨i, hi, rfl⟩ := List.mem_map.1 h
  exact ht i (mem_indices.1 hi)

theorem geo_is (theta phi : Arr ℝ) (b : Base) (ob : List ℕ → Option Coord.Base) (inverse : Bool) {M1 M2 S : List ℕ} (hb : BaseIs M1 M2 M2 b ob) (h12 : Into M1 M2)
    (hS : broadcast [theta.shape, phi.shape, M2] = some S) :
    ∃ th ph, geoToBase (ofReal theta) (ofReal phi) b inverse = .ok (th, ph) ∧ th.shape = S ∧ ph.shape = S ∧
      ∀ i, th.at i = (ob i).map (fun b => (Coord.geoToBase (theta.at i) (phi.at i) b inverse).1) ∧
        ph.at i = (ob i).map fun b => (Coord.geoToBase (theta.at i) (phi.at i) b inverse).2 := by
  obtain ⟨u1, u2, u3, v1, v2, v3, hc⟩ := hb
  have hi := broadcast_into hS
  have it := hi theta.shape (by simp)
  have ip := hi phi.shape (by simp)
  have iM := hi M2 (by simp)
  have hleast : ∀ T, Into theta.shape T → Into phi.shape T → Into M2 T → Into S T := by
    intro T h1 h2 h3
    obtain ⟨r, hr, hT⟩ := broadcast_of_into (l := [theta.shape, phi.shape, M2]) (G := T) (by
      intro s hs
      simp only [List.mem_cons, List.not_mem_nil, or_false] at hs
      rcases hs with rfl | rfl | rfl <;> assumption)
    rw [hS] at hr
    cases hr
    exact hT
  obtain ⟨hx, hy, hz⟩ := s2c_is (G := S) (ofReal theta) (ofReal phi) it ip
  have A := fun k => (v1.comp k).is (into_trans h12 iM)
  have B := fun k => (v2.comp k).is iM
  have C := fun k => (v3.comp k).is iM
  cases inverse with
  | false =>
    have X := (((A 0).mul hx).add ((A 1).mul hy)).add ((A 2).mul hz)
    have Y := (((B 0).mul hx).add ((B 1).mul hy)).add ((B 2).mul hz)
    have Z := (((C 0).mul hx).add ((C 1).mul hy)).add ((C 2).mul hz)
    obtain ⟨th, t1, t2, t3⟩ := ((((X.app (· ^ 2)).add (Y.app (· ^ 2))).app Real.sqrt).atan2 Z |>.app Coord.degrees).ex
      (fun T hT => hleast T (hT theta.shape (by simp [ofReal, Arr.map])) (hT phi.shape (by simp [ofReal, Arr.map])) (hT M2 (by simp)))
    obtain ⟨ph, p1, p2, p3⟩ := ((Y.atan2 X).app Coord.degrees).ex
      (fun T hT => hleast T (hT theta.shape (by simp [ofReal, Arr.map])) (hT phi.shape (by simp [ofReal, Arr.map])) (hT M2 (by simp)))
    refine ⟨th, ph, ?_, t2, p2, fun i => ?_⟩
    · unfold geoToBase
      simp only [Bool.false_eq_true, if_false, bind, Except.bind]
      have t1' : (cartesianToSpherical (comp b.e1 0 * (sphericalToCartesian (scalar (some 1)) (ofReal theta) (ofReal phi)).1 +
          comp b.e1 1 * (sphericalToCartesian (scalar (some 1)) (ofReal theta) (ofReal phi)).2.1 +
          comp b.e1 2 * (sphericalToCartesian (scalar (some 1)) (ofReal theta) (ofReal phi)).2.2)
          (comp b.e2 0 * (sphericalToCartesian (scalar (some 1)) (ofReal theta) (ofReal phi)).1 +
          comp b.e2 1 * (sphericalToCartesian (scalar (some 1)) (ofReal theta) (ofReal phi)).2.1 +
          comp b.e2 2 * (sphericalToCartesian (scalar (some 1)) (ofReal theta) (ofReal phi)).2.2)
          (comp b.e3 0 * (sphericalToCartesian (scalar (some 1)) (ofReal theta) (ofReal phi)).1 +
          comp b.e3 1 * (sphericalToCartesian (scalar (some 1)) (ofReal theta) (ofReal phi)).2.1 +
          comp b.e3 2 * (sphericalToCartesian (scalar (some 1)) (ofReal theta) (ofReal phi)).2.2)).1.run = .ok th := t1
      rw [t1']
      simp only
      have p1' : (cartesianToSpherical (comp b.e1 0 * (sphericalToCartesian (scalar (some 1)) (ofReal theta) (ofReal phi)).1 +
          comp b.e1 1 * (sphericalToCartesian (scalar (some 1)) (ofReal theta) (ofReal phi)).2.1 +
          comp b.e1 2 * (sphericalToCartesian (scalar (some 1)) (ofReal theta) (ofReal phi)).2.2)
          (comp b.e2 0 * (sphericalToCartesian (scalar (some 1)) (ofReal theta) (ofReal phi)).1 +
          comp b.e2 1 * (sphericalToCartesian (scalar (some 1)) (ofReal theta) (ofReal phi)).2.1 +
          comp b.e2 2 * (sphericalToCartesian (scalar (some 1)) (ofReal theta) (ofReal phi)).2.2)
          (comp b.e3 0 * (sphericalToCartesian (scalar (some 1)) (ofReal theta) (ofReal phi)).1 +
          comp b.e3 1 * (sphericalToCartesian (scalar (some 1)) (ofReal theta) (ofReal phi)).2.1 +
          comp b.e3 2 * (sphericalToCartesian (scalar (some 1)) (ofReal theta) (ofReal phi)).2.2)).2.run = .ok ph := p1
      rw [p1']
      rfl
    · rw [t3, p3]
      beta_reduce
      cases ho : ob i with
      | none =>
        rw [(hc i).2 ho]
        simp [cpt]
      | some w =>
        obtain ⟨e1, e2, e3⟩ := (hc i).1 w ho
        rw [e1, e2, e3]
        exact ⟨rfl, rfl⟩
  | true =>
    have X := (((A 0).mul hx).add ((B 0).mul hy)).add ((C 0).mul hz)
    have Y := (((A 1).mul hx).add ((B 1).mul hy)).add ((C 1).mul hz)
    have Z := (((A 2).mul hx).add ((B 2).mul hy)).add ((C 2).mul hz)
    obtain ⟨th, t1, t2, t3⟩ := ((((X.app (· ^ 2)).add (Y.app (· ^ 2))).app Real.sqrt).atan2 Z |>.app Coord.degrees).ex
      (fun T hT => hleast T (hT theta.shape (by simp [ofReal, Arr.map])) (hT phi.shape (by simp [ofReal, Arr.map])) (hT M2 (by simp)))
    obtain ⟨ph, p1, p2, p3⟩ := ((Y.atan2 X).app Coord.degrees).ex
      (fun T hT => hleast T (hT theta.shape (by simp [ofReal, Arr.map])) (hT phi.shape (by simp [ofReal, Arr.map])) (hT M2 (by simp)))
    refine ⟨th, ph, ?_, t2, p2, fun i => ?_⟩
    · unfold geoToBase
      simp only [if_true, bind, Except.bind]
      have t1' : (cartesianToSpherical (comp b.e1 0 * (sphericalToCartesian (scalar (some 1)) (ofReal theta) (ofReal phi)).1 +
          comp b.e2 0 * (sphericalToCartesian (scalar (some 1)) (ofReal theta) (ofReal phi)).2.1 +
          comp b.e3 0 * (sphericalToCartesian (scalar (some 1)) (ofReal theta) (ofReal phi)).2.2)
          (comp b.e1 1 * (sphericalToCartesian (scalar (some 1)) (ofReal theta) (ofReal phi)).1 +
          comp b.e2 1 * (sphericalToCartesian (scalar (some 1)) (ofReal theta) (ofReal phi)).2.1 +
          comp b.e3 1 * (sphericalToCartesian (scalar (some 1)) (ofReal theta) (ofReal phi)).2.2)
          (comp b.e1 2 * (sphericalToCartesian (scalar (some 1)) (ofReal theta) (ofReal phi)).1 +
          comp b.e2 2 * (sphericalToCartesian (scalar (some 1)) (ofReal theta) (ofReal phi)).2.1 +
          comp b.e3 2 * (sphericalToCartesian (scalar (some 1)) (ofReal theta) (ofReal phi)).2.2)).1.run = .ok th := t1
      rw [t1']
      simp only
      have p1' : (cartesianToSpherical (comp b.e1 0 * (sphericalToCartesian (scalar (some 1)) (ofReal theta) (ofReal phi)).1 +
          comp b.e2 0 * (sphericalToCartesian (scalar (some 1)) (ofReal theta) (ofReal phi)).2.1 +
          comp b.e3 0 * (sphericalToCartesian (scalar (some 1)) (ofReal theta) (ofReal phi)).2.2)
          (comp b.e1 1 * (sphericalToCartesian (scalar (some 1)) (ofReal theta) (ofReal phi)).1 +
          comp b.e2 1 * (sphericalToCartesian (scalar (some 1)) (ofReal theta) (ofReal phi)).2.1 +
          comp b.e3 1 * (sphericalToCartesian (scalar (some 1)) (ofReal theta) (ofReal phi)).2.2)
          (comp b.e1 2 * (sphericalToCartesian (scalar (some 1)) (ofReal theta) (ofReal phi)).1 +
          comp b.e2 2 * (sphericalToCartesian (scalar (some 1)) (ofReal theta) (ofReal phi)).2.1 +
          comp b.e3 2 * (sphericalToCartesian (scalar (some 1)) (ofReal theta) (ofReal phi)).2.2)).2.run = .ok ph := p1
      rw [p1']
      rfl
    · rw [t3, p3]
      beta_reduce
      cases ho : ob i with
      | none =>
        rw [(hc i).2 ho]
        simp [cpt]
      | some w =>
        obtain ⟨e1, e2, e3⟩ := (hc i).1 w ho
        rw [e1, e2, e3]
        exact ⟨rfl, rfl⟩

/-- `M` is the shape of the base vectors of a reference system for dipoles of the shape `L` and times of the shape `T`. -/
inductive RefShape : String → List ℕ → List ℕ → List ℕ → Prop
  | gsm (L T M : List ℕ) (h : bcast L T = some M) : RefShape "gsm" L T M
  | sm (L T : List ℕ) (h : bcast T L = some T) : RefShape "sm" L T T
  | mag (L T : List ℕ) : RefShape "mag" L T L

theorem reference_is (config : ℝ × ℝ × ℝ) (reference : String) (time : Arr ℝ) (d : Dipole) (L M : List ℕ) (hd : DipoleShape d L)
    (hM : RefShape reference L time.shape M) (ht : reference ≠ "mag" → ∀ i, Valid time.shape i → time.get i < 36159.75) :
    ∃ b ob M1, referenceBase config reference d time = .ok b ∧ Into M1 M ∧ (reference ≠ "gsm" → M1 = M) ∧ (reference = "gsm" → M1 = time.shape) ∧ BaseIs M1 M M b ob ∧
      ∀ i, (reference = "mag" ∨ time.at i < 36159.75) → Coord.referenceBase config reference (d.at i) [time.at i] = .ok [ob i] := by
  cases hM with
  | gsm L T M h =>
    obtain ⟨b, o, h1, h2, h3⟩ := gsm_vec config time d L M hd h (sunCheck_arr time (ht (by decide)))
    refine ⟨b, _, time.shape, ?_, (bcast_into h).2, fun hh => (hh rfl).elim, fun _ => rfl, h3, fun i hi => ?_⟩
    · unfold referenceBase
      rw [if_pos rfl]
      exact h1
    · have hi' : time.at i < 36159.75 := hi.resolve_left (by decide)
      unfold Coord.referenceBase
      rw [if_pos rfl, h2]
      simp only [bind, Except.bind]
      rw [if_pos ((sunCheck_iff _).2 (by simpa using hi'))]
      rfl
  | sm L T h =>
    obtain ⟨b, o, h1, h2, h3⟩ := sm_vec config time d L hd (bcast_iff_into.1 h) (sunCheck_arr time (ht (by decide)))
    refine ⟨b, _, time.shape, ?_, into_refl _, fun _ => rfl, fun _ => rfl, h3, fun i hi => ?_⟩
    · unfold referenceBase
      rw [if_neg (by decide), if_pos rfl]
      exact h1
    · have hi' : time.at i < 36159.75 := hi.resolve_left (by decide)
      unfold Coord.referenceBase
      rw [if_neg (by decide), if_pos rfl, h2]
      simp only [bind, Except.bind]
      rw [if_pos ((sunCheck_iff _).2 (by simpa using hi'))]
      rfl
  | mag L T =>
    obtain ⟨b, o, h1, h2, h3⟩ := mag_vec config d L hd
    refine ⟨b, _, L, ?_, into_refl _, fun _ => rfl, fun hh => absurd hh (by decide), h3, fun i _ => ?_⟩
    · unfold referenceBase
      rw [if_neg (by decide), if_neg (by decide), if_pos rfl]
      exact h1
    · unfold Coord.referenceBase
      rw [if_neg (by decide), if_neg (by decide), if_pos rfl, h2]
      rfl

/-- Times of a valid index of the result. -/
theorem time_valid (reference : String) (time : Arr ℝ) (L M S : List ℕ) (hM : RefShape reference L time.shape M) (hS : Into M S)
    (ht : reference ≠ "mag" → ∀ i, Valid time.shape i → time.get i < 36159.75) (i : List ℕ) (hi : Valid S i) :
    reference = "mag" ∨ time.at i < 36159.75 := by
  by_cases hr : reference = "mag"
  · exact Or.inl hr
  · refine Or.inr (ht hr _ (proj_isValid ?_ hi))
    cases hM with
    | gsm L T M h => exact into_trans (bcast_into h).2 hS
    | sm L T h => exact hS
    | mag L T => exact absurd rfl hr

/-- **C77** (points). Colatitudes, longitudes, times and dipoles of any shapes that fit together: the two results have the broadcast shape,
and at each index they are the coordinates that the call for this point alone gives (NaN if the base vectors of this point are not
defined). -/
theorem C77_points (config : ℝ × ℝ × ℝ) (theta phi time : Arr ℝ) (reference : String) (inverse : Bool) (d : Dipole) (L M S : List ℕ)
    (hd : DipoleShape d L) (hM : RefShape reference L time.shape M) (hS : broadcast [theta.shape, phi.shape, M] = some S)
    (ht : reference ≠ "mag" → ∀ i, Valid time.shape i → time.get i < 36159.75) :
    ∃ th ph, transformPoints config theta phi time reference inverse d = .ok (th, ph) ∧ th.shape = S ∧ ph.shape = S ∧
      ∀ i, Valid S i → ∃ r : Option (ℝ × ℝ),
        Coord.transformPoints config reference (d.at i) inverse [(theta.at i, phi.at i, time.at i)] = .ok [r] ∧
        th.get i = r.map Prod.fst ∧ ph.get i = r.map Prod.snd := by
  obtain ⟨b, ob, M1, h1, h2, -, -, h3, h4⟩ := reference_is config reference time d L M hd hM ht
  obtain ⟨th, ph, g1, g2, g3, g4⟩ := geo_is theta phi b ob inverse h3 h2 hS
  refine ⟨th, ph, ?_, g2, g3, fun i hi => ?_⟩
  · unfold transformPoints
    rw [h1]
    exact g1
  · refine ⟨(ob i).map fun b => Coord.geoToBase (theta.at i) (phi.at i) b inverse, ?_, ?_, ?_⟩
    · have := h4 i (time_valid reference time L M S hM (broadcast_into hS M (by simp)) ht i hi)
      unfold Coord.transformPoints
      simp only [List.map_cons, List.map_nil]
      rw [this]
      rfl
    · rw [← at_valid th i (by rw [g2]; exact hi), (g4 i).1]
      cases ob i <;> rfl
    · rw [← at_valid ph i (by rw [g3]; exact hi), (g4 i).2]
      cases ob i <;> rfl

end ChaosMagPy.CoordArr
