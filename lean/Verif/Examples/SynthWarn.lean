import Verif.Props.SynthWarn
/-!
# Concrete cases for C86
-/
namespace ChaosMagPy.PPoly
open ChaosMagPy.Spec

/-- C86_complete: two times, one outside. -/
example := C86_complete exModel [0.5, 4] none (some 1) (some (.str "off"))

theorem ex_hasCoeffs : HasCoeffs exModel := ⟨⟨exC, rfl⟩, by simp [exModel], by simp [exModel], by simp [exModel]⟩

/-- C86_missing, C86_unchecked: the times NaN and 4, no extrapolation and an option that does not exist. The value at 4 is that of the last piece, `(4-1)^2`. -/
example : ∃ rows v, (exModel.synthCoeffsN [none, some 4] none none (some (.str "off"))).2 = .ok (3, rows) ∧ rows[0]? = some none ∧ rows[1]? = some (some v) ∧ v 0 = 9 := by
  obtain ⟨rows, h1, h2⟩ := C86_unchecked exProper [none, some 4] (by simp) none none (some (.str "off"))
  obtain ⟨v, h3, h4⟩ := h2 1 4 1 rfl (.inr (.inr ⟨by norm_num [exModel, last], rfl⟩))
  refine ⟨rows, v, h1, (C86_missing _ _ _ _ _ _ _ h1 0 rfl).2, h3, ?_⟩
  rw [h4]
  simp only [dOrder, Option.getD_none, iteratedDeriv_zero, exPiece]
  norm_num
example := C86_unchecked exProper [none, some 4] (by simp) none none (some (.str "lineal"))

/-- C86_warnings, C86_message: the time 4 with five coefficients asked for (there are three), extrapolation of order 7 (the model has order 3). -/
example : ∃ m, (exModel.synthCoeffsN [some 4] (some 5) none (some (.int 7))).1 = [.dim 5 3, .outside 0 3 m] ∧
    exModel.synthCoeffsN [some 4] (some 5) none (some (.str (if m = "no" then "off" else m))) = exModel.synthCoeffsN [some 4] (some 5) none (some (.int 7)) := by
  obtain ⟨m, hm⟩ := C86_warnings exModel ex_hasCoeffs [some 4] (some 5) none (some (.int 7))
  rw [if_pos ⟨5, rfl, by norm_num [exModel]⟩, if_pos ⟨by simp, ⟨4, by simp, .inr (by norm_num [exModel, last])⟩, trivial⟩] at hm
  refine ⟨m, hm, (C86_message exModel [some 4] (some 5) none (some (.int 7)) _ _ m (by rw [hm]; exact List.mem_cons_of_mem _ (List.mem_singleton.2 rfl))).2.2.2 ?_⟩
  rintro ⟨z, hz, h⟩
  injection hz with hz
  injection hz with hz
  subst hz
  simp [exModel] at h

/-- C86_message: a negative order. -/
example : ∃ m, (exModel.synthCoeffsN [some 4] none none (some (.int (-1)))).1 = [.outside 0 3 m] ∧ m = "order-{key} spline" := by
  obtain ⟨m, hm⟩ := C86_warnings exModel ex_hasCoeffs [some 4] none none (some (.int (-1)))
  rw [if_neg (by simp), if_pos ⟨by simp, ⟨4, by simp, .inr (by norm_num [exModel, last])⟩, trivial⟩] at hm
  exact ⟨m, hm, (C86_message exModel [some 4] none none (some (.int (-1))) _ _ m (by rw [hm]; exact List.mem_singleton.2 rfl)).2.2.1 ⟨-1, rfl, by norm_num⟩⟩

end ChaosMagPy.PPoly
