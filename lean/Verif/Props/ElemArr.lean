import Verif.Lemmas.ElemArr
import Verif.Props.CoordArr
import Verif.Props.Geodetic
/-!
# C79: functions of coordinates and times applied to arrays
-/
namespace ChaosMagPy.ElemArr
open ChaosMagPy.Synth (Error)
open ChaosMagPy.NumPy ChaosMagPy.CoordArr ChaosMagPy.Spec

/-- **C79** (zenith angle). Times before 2099: the shape is the broadcast shape of the three arguments and each value is the angle of this
point alone (never NaN); shapes that do not fit together give ValueError. A single later time gives AssertionError. -/
theorem C79_zenith (time theta phi : Arr ℝ) :
    ((∀ i, Valid time.shape i → time.get i < 36159.75) → Fits [time.shape, theta.shape, phi.shape] (zenithAngle time theta phi) fun a =>
      broadcast [time.shape, theta.shape, phi.shape] = some a.shape ∧
      ∀ i, Valid a.shape i → ∃ z, Coord.zenithAngle (time.at i) (theta.at i) (phi.at i) = .ok z ∧ a.get i = some z) ∧
    (∀ i, Valid time.shape i → ¬ time.get i < 36159.75 → zenithAngle time theta phi = .error .assertionError) := by
  constructor
  · intro ht
    have hsun : sunPosition time = .ok (time.map fun t => some (Coord.sunPoint t).1, time.map fun t => some (Coord.sunPoint t).2) := by
      unfold sunPosition
      rw [if_pos (sunCheck_arr time ht)]
    have T1 : Elem (fun _ => True) [time.shape] (ne (time.map fun t => some (Coord.sunPoint t).1)) fun i => (Coord.sunPoint (time.at i)).1 :=
      Elem.leaf (time.map fun t => some (Coord.sunPoint t).1) fun _ _ => rfl
    have T2 : Elem (fun _ => True) [time.shape] (ne (time.map fun t => some (Coord.sunPoint t).2)) fun i => (Coord.sunPoint (time.at i)).2 :=
      Elem.leaf (time.map fun t => some (Coord.sunPoint t).2) fun _ _ => rfl
    have T := (Elem.arr (V := fun _ => True) theta).app Coord.radians
    have P := (Elem.arr (V := fun _ => True) phi).app Coord.radians
    have C := (T1.app Coord.radians)
    have A := (T2.app Coord.radians)
    have Z := ((((T.app Real.cos).mul (C.app Real.cos)).add (((T.app Real.sin).mul (C.app Real.sin)).mul ((A.sub P).app Real.cos))).arccos (by
      intro i _
      set t := Coord.radians (theta.at i)
      set c := Coord.radians (Coord.sunPoint (time.at i)).1
      set d := Coord.radians (Coord.sunPoint (time.at i)).2 - Coord.radians (phi.at i)
      have e1 : Real.cos (t - c) = Real.cos t * Real.cos c + Real.sin t * Real.sin c := Real.cos_sub t c
      have e2 : Real.cos (t + c) = Real.cos t * Real.cos c - Real.sin t * Real.sin c := Real.cos_add t c
      have e3 : Real.cos t * Real.cos c + Real.sin t * Real.sin c * Real.cos d =
          (1 + Real.cos d) / 2 * Real.cos (t - c) + (1 - Real.cos d) / 2 * Real.cos (t + c) := by rw [e1, e2]; ring
      have h1 := Real.neg_one_le_cos d
      have h2 := Real.cos_le_one d
      have h3 := Real.neg_one_le_cos (t - c)
      have h4 := Real.cos_le_one (t - c)
      have h5 := Real.neg_one_le_cos (t + c)
      have h6 := Real.cos_le_one (t + c)
      beta_reduce
      rw [e3]
      constructor <;> nlinarith)).app Coord.degrees
    have Z' := Z.src (l' := [time.shape, theta.shape, phi.shape]) (broadcast_set (by intro s; simp only [List.mem_append, List.mem_singleton, List.mem_cons, List.not_mem_nil, or_false]; tauto))
    refine ⟨fun hb => ?_, fun hb => ?_⟩
    · obtain ⟨G, hG⟩ := Option.ne_none_iff_exists'.1 hb
      obtain ⟨a, h1, h2, h3, -⟩ := Z'.holds hG
      refine ⟨a, ?_, h3.1, fun i hi => ?_⟩
      · unfold zenithAngle
        rw [hsun]
        exact h1
      · have hti : time.at i < 36159.75 := ht _ (proj_isValid (broadcast_into h3.1 time.shape (by simp)) hi)
        refine ⟨_, ?_, h3.2 i hi trivial⟩
        unfold Coord.zenithAngle Coord.sunPosition
        rw [if_pos ((sunCheck_iff _).2 (by simpa using hti))]
        rfl
    · unfold zenithAngle
      rw [hsun]
      exact Z'.2 hb
  · intro i hi hn
    unfold zenithAngle sunPosition
    rw [if_neg]
    · rfl
    · rw [sunCheck_iff]
      intro h
      exact hn (h _ (List.mem_map.2 ⟨i, mem_indices.2 hi, rfl⟩))

/-- **C79** (local time). -/
theorem C79_local_time (time phi : Arr ℝ) : Fits [time.shape, phi.shape] (localTime time phi) fun a =>
    Holds [time.shape, phi.shape] a (fun _ => True) fun i => Coord.localTime (time.at i) (phi.at i) := by
  have h := ((((Elem.arr (V := fun _ => True) time).add ((Elem.arr phi).app fun p => p / 360)).app fun x => Coord.remainder x 1).mul (Elem.num 24)).src
    (l' := [time.shape, phi.shape]) (broadcast_drop (by simp) (by simp))
  refine ⟨fun hb => ?_, h.2⟩
  obtain ⟨G, hG⟩ := Option.ne_none_iff_exists'.1 hb
  obtain ⟨a, h1, -, h3, -⟩ := h.holds hG
  exact ⟨a, h1, h3⟩

/-- **C79** (azimuth). The shape is kept; every angle of the result is in (-180, 180] and differs from the argument by whole turns. -/
theorem C79_azimuth (phi : Arr ℝ) : (centerAzimuth phi).shape = phi.shape ∧
    ∀ i, -180 < (centerAzimuth phi).get i ∧ (centerAzimuth phi).get i ≤ 180 ∧ ∃ k : ℤ, (centerAzimuth phi).get i = phi.get i + 360 * k :=
  ⟨rfl, fun i => ⟨(Coord.C40_center_azimuth (phi.get i)).1, (Coord.C40_center_azimuth (phi.get i)).2.1, (Coord.C40_center_azimuth (phi.get i)).2.2.1⟩⟩

/-- **C79** (cartesian coordinates). The third coordinate does not take part in the broadcasting over the longitude. -/
theorem C79_to_cartesian (radius theta phi : Arr ℝ) : Fits [radius.shape, theta.shape, phi.shape] (sphericalToCartesian radius theta phi) fun r =>
    Holds [radius.shape, theta.shape, phi.shape] r.1 (fun _ => True) (fun i => Coord.sphericalToCartesian (radius.at i) (theta.at i) (phi.at i) 0) ∧
    Holds [radius.shape, theta.shape, phi.shape] r.2.1 (fun _ => True) (fun i => Coord.sphericalToCartesian (radius.at i) (theta.at i) (phi.at i) 1) ∧
    Holds [radius.shape, theta.shape] r.2.2 (fun _ => True) (fun i => Coord.sphericalToCartesian (radius.at i) (theta.at i) (phi.at i) 2) := by
  have R := Elem.arr (V := fun _ => True) radius
  have T := (Elem.arr (V := fun _ => True) theta).app Coord.radians
  have P := (Elem.arr (V := fun _ => True) phi).app Coord.radians
  have X := ((R.mul (P.app Real.cos)).mul (T.app Real.sin)).src (l' := [radius.shape, theta.shape, phi.shape])
    (broadcast_set (by intro s; simp only [List.mem_append, List.mem_singleton, List.mem_cons, List.not_mem_nil, or_false]; tauto))
  have Y := ((R.mul (P.app Real.sin)).mul (T.app Real.sin)).src (l' := [radius.shape, theta.shape, phi.shape])
    (broadcast_set (by intro s; simp only [List.mem_append, List.mem_singleton, List.mem_cons, List.not_mem_nil, or_false]; tauto))
  have Z := (R.mul (T.app Real.cos)).src (l' := [radius.shape, theta.shape]) rfl
  refine ⟨fun hb => ?_, fun hb => ?_⟩
  · obtain ⟨G, hG⟩ := Option.ne_none_iff_exists'.1 hb
    obtain ⟨G', hG', -⟩ := broadcast_of_into (l := [radius.shape, theta.shape]) (G := G) (fun s hs => broadcast_into hG s (by
      simp only [List.mem_cons, List.not_mem_nil, or_false] at hs ⊢; tauto))
    obtain ⟨x, x1, -, x3, -⟩ := X.holds hG
    obtain ⟨y, y1, -, y3, -⟩ := Y.holds hG
    obtain ⟨z, z1, -, z3, -⟩ := Z.holds hG'
    refine ⟨(x, y, z), ?_, x3, y3, z3⟩
    unfold sphericalToCartesian
    simp only [bind, Except.bind]
    rw [x1]
    simp only
    rw [y1]
    simp only
    rw [z1]
    rfl
  · unfold sphericalToCartesian
    simp only [bind, Except.bind]
    rw [X.2 hb]

/-- **C79** (spherical coordinates). The longitude does not take part in the broadcasting over the third coordinate. -/
theorem C79_to_spherical (x y z : Arr ℝ) : Fits [x.shape, y.shape, z.shape] (cartesianToSpherical x y z) fun r =>
    Holds [x.shape, y.shape, z.shape] r.1 (fun _ => True) (fun i => (Coord.cartesianToSpherical ![x.at i, y.at i, z.at i]).1) ∧
    Holds [x.shape, y.shape, z.shape] r.2.1 (fun _ => True) (fun i => (Coord.cartesianToSpherical ![x.at i, y.at i, z.at i]).2.1) ∧
    Holds [x.shape, y.shape] r.2.2 (fun _ => True) (fun i => (Coord.cartesianToSpherical ![x.at i, y.at i, z.at i]).2.2) := by
  have X := Elem.arr (V := fun _ => True) x
  have Y := Elem.arr (V := fun _ => True) y
  have Z := Elem.arr (V := fun _ => True) z
  have X2 := X.app (· ^ 2)
  have Y2 := Y.app (· ^ 2)
  have Z2 := Z.app (· ^ 2)
  have R := (((X2.add Y2).add Z2).sqrt (fun i _ => by positivity)).src (l' := [x.shape, y.shape, z.shape]) rfl
  have T := ((X2.add Y2).sqrt (fun i _ => by positivity)).atan2 Z |>.src (l' := [x.shape, y.shape, z.shape]) rfl
  have P := (Y.atan2 X).src (l' := [x.shape, y.shape])
    (broadcast_set (by intro s; simp only [List.mem_append, List.mem_singleton, List.mem_cons, List.not_mem_nil, or_false]; tauto))
  refine ⟨fun hb => ?_, fun hb => ?_⟩
  · obtain ⟨G, hG⟩ := Option.ne_none_iff_exists'.1 hb
    obtain ⟨G', hG', -⟩ := broadcast_of_into (l := [x.shape, y.shape]) (G := G) (fun s hs => broadcast_into hG s (by
      simp only [List.mem_cons, List.not_mem_nil, or_false] at hs ⊢; tauto))
    obtain ⟨r, r1, -, r3, -⟩ := R.holds hG
    obtain ⟨t, t1, -, t3, -⟩ := T.holds hG
    obtain ⟨p, p1, -, p3, -⟩ := P.holds hG'
    refine ⟨(r, t.map (Option.map Coord.degrees), p.map (Option.map Coord.degrees)), ?_, ⟨r3.1, fun i hi hv => by rw [r3.2 i hi hv]; rfl⟩, ⟨t3.1, fun i hi hv => ?_⟩, ⟨p3.1, fun i hi hv => ?_⟩⟩
    · unfold cartesianToSpherical
      simp only [bind, Except.bind]
      rw [r1]
      simp only
      rw [t1]
      simp only
      rw [p1]
      rfl
    · show Option.map _ (t.get i) = _
      rw [t3.2 i hi hv]
      rfl
    · show Option.map _ (p.get i) = _
      rw [p3.2 i hi hv]
      rfl
  · unfold cartesianToSpherical
    simp only [bind, Except.bind]
    rw [R.2 hb]

end ChaosMagPy.ElemArr
