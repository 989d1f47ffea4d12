import Verif.Props.SynthNan
/-!
# Concrete cases for C87
-/
namespace ChaosMagPy.SynthNan
open ChaosMagPy.Spec
open ChaosMagPy.Synth (Error Source)

/-- An axial dipole. -/
noncomputable def dip : ℕ → ℝ := fun i => if i = 0 then -30000 else 100

/-- Points between the poles, beyond the pole, at the pole, and without colatitude. -/
noncomputable def pts : List Point :=
  [complete ⟨6371.2, 60, 30, dip⟩, complete ⟨6371.2, 200, 30, dip⟩, complete ⟨6371.2, 0, 30, dip⟩, ⟨some 6371.2, none, some 30, fun i => some (dip i)⟩]

theorem start3 : coefStart 1 (1 : ℤ).toNat (1 + 1) = 3 := by decide

theorem hmiss : ∃ p ∈ pts, p.theta = none := ⟨⟨some 6371.2, none, some 30, fun i => some (dip i)⟩, by simp [pts], rfl⟩

/-- The call succeeds although 200 is no colatitude. -/
theorem ex_succeeds : ∃ l, synthValues 6371.2 3 pts (some (1 : ℕ)) (some (1 : ℕ)) (some 1) (some Source.internal.name) = .ok l ∧ l.length = pts.length :=
  C87_unchecked_succeeds 6371.2 (by norm_num) 3 pts 1 1 1 .internal le_rfl le_rfl (by rw [start3]) hmiss

/-- The first point has the values of a call for itself. -/
example : ∃ l b, synthValues 6371.2 3 pts (some (1 : ℕ)) (some (1 : ℕ)) (some 1) (some Source.internal.name) = .ok l ∧
    Synth.synthValues 6371.2 3 [⟨6371.2, 60, 30, dip⟩] (some (1 : ℕ)) (some (1 : ℕ)) (some 1) (some Source.internal.name) = .ok [b] ∧ l[0]? = some (numbers b) := by
  obtain ⟨l, hl, -⟩ := ex_succeeds
  obtain ⟨b, h1, h2⟩ := C87_isolated 6371.2 (by norm_num) 3 pts 1 1 1 .internal le_rfl le_rfl l hl 0 _ rfl (by norm_num) (by norm_num) (.inl (by norm_num))
  exact ⟨l, b, hl, h1, h2⟩

/-- The second point is refused alone, but gets the values of colatitude 160 here. -/
example : ∃ l b, synthValues 6371.2 3 pts (some (1 : ℕ)) (some (1 : ℕ)) (some 1) (some Source.internal.name) = .ok l ∧
    Synth.synthValues 6371.2 3 [⟨6371.2, 200, 30, dip⟩] (some (1 : ℕ)) (some (1 : ℕ)) (some 1) (some Source.internal.name) = .error .valueError ∧
    Synth.synthValues 6371.2 3 [⟨6371.2, 160, 30, dip⟩] (some (1 : ℕ)) (some (1 : ℕ)) (some 1) (some Source.internal.name) = .ok [b] ∧ l[1]? = some (numbers b) := by
  obtain ⟨l, hl, -⟩ := ex_succeeds
  obtain ⟨h0, b, h1, h2⟩ := C87_unchecked_outside 6371.2 (by norm_num) 3 pts 1 1 1 .internal le_rfl le_rfl l hmiss hl 1 ⟨6371.2, 200, 30, dip⟩ rfl (by norm_num) (.inr (by norm_num))
    160 (by norm_num) (by norm_num) (by
      rw [show rad 160 = 2 * Real.pi - rad 200 by unfold rad; ring, Real.cos_two_pi_sub])
  exact ⟨l, b, hl, h0, h1, h2⟩

/-- The third point has no azimuthal component. -/
example : ∃ l b, synthValues 6371.2 3 pts (some (1 : ℕ)) (some (1 : ℕ)) (some 1) (some Source.internal.name) = .ok l ∧
    Synth.synthValues 6371.2 3 [⟨6371.2, 0, 30, dip⟩] (some (1 : ℕ)) (some (1 : ℕ)) (some 1) (some Source.internal.name) = .ok [b] ∧ l[2]? = some (some b.1, some b.2.1, none) := by
  obtain ⟨l, hl, -⟩ := ex_succeeds
  obtain ⟨b, h1, h2⟩ := C87_unchecked_pole 6371.2 (by norm_num) 3 pts 1 1 1 le_rfl .internal le_rfl le_rfl l hmiss hl 2 ⟨6371.2, 0, 30, dip⟩ rfl (by norm_num) (.inl rfl)
  exact ⟨l, b, hl, h1, h2⟩

/-- The fourth point has no values. -/
example : ∃ l, synthValues 6371.2 3 pts (some (1 : ℕ)) (some (1 : ℕ)) (some 1) (some Source.internal.name) = .ok l ∧ l[3]? = some (none, none, none) := by
  obtain ⟨l, hl, -⟩ := ex_succeeds
  obtain ⟨b, h1, ⟨h2, h3⟩, h4⟩ := C87_missing 6371.2 3 pts 1 1 1 .internal le_rfl le_rfl l hl 3 _ rfl true (.theta rfl true (fun _ => le_rfl))
  refine ⟨l, hl, ?_⟩
  rw [h1]
  obtain ⟨x, y, z⟩ := b
  have h4 := h4 rfl
  simp only at h2 h3 h4
  rw [h2, h3, h4]

/-- A missing radius, azimuth, zonal and other coefficient. -/
example : Missing .internal 1 1 1 ⟨none, some 60, some 30, fun _ => some 1⟩ true ∧ Missing .internal 1 1 1 ⟨some 6371.2, some 60, none, fun _ => some 1⟩ true ∧
    Missing .internal 1 1 1 ⟨some 6371.2, some 60, some 30, fun i => if i = 0 then none else some 1⟩ false ∧
    Missing .internal 1 1 1 ⟨some 6371.2, some 60, some 30, fun i => if i = 2 then none else some 1⟩ true :=
  ⟨.radius rfl (.inl rfl) _ (fun _ => le_rfl), .phi rfl le_rfl _, .zonal 1 le_rfl le_rfl (by simp [coefStart]), .sectoral 1 1 le_rfl le_rfl le_rfl le_rfl le_rfl (.inr (by simp [coefStart])) _⟩

/-- Zonal coefficients only: the azimuth may be missing. -/
example : synthValues 6371.2 1 [⟨some 6371.2, some 60, none, fun _ => some 1⟩] (some (1 : ℕ)) (some (1 : ℕ)) (some 0) (some Source.internal.name) =
    synthValues 6371.2 1 [⟨some 6371.2, some 60, some 30, fun _ => some 1⟩] (some (1 : ℕ)) (some (1 : ℕ)) (some 0) (some Source.internal.name) :=
  (C87_zonal 6371.2 1 [⟨some 6371.2, some 60, some 30, fun _ => some 1⟩] 1 1 0 le_rfl .internal le_rfl le_rfl (fun _ => none)).1

/-- Uniform external field: the radius may be missing. -/
example : synthValues 6371.2 3 [⟨none, some 60, some 30, fun _ => some 1⟩] (some 1) (some 1) (some 1) (some "external") =
    synthValues 6371.2 3 [⟨some 7000, some 60, some 30, fun _ => some 1⟩] (some 1) (some 1) (some 1) (some "external") :=
  C87_uniform 6371.2 3 [⟨some 7000, some 60, some 30, fun _ => some 1⟩] 1 (fun _ => none)

end ChaosMagPy.SynthNan
