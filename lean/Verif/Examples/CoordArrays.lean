import Verif.Props.CoordArrErr
/-!
# Concrete cases for C77

Each example applies one theorem to concrete arguments for which all its hypotheses hold.
-/
namespace ChaosMagPy.CoordArr
open ChaosMagPy.Synth (Error)
open ChaosMagPy.NumPy

/-- Two colatitudes. -/
def exTheta : Arr ℝ := ⟨[2], fun i => if i = [0] then 45 else 100⟩

/-- Three times in a column. -/
def exTime : Arr ℝ := ⟨[3, 1], fun i => (i.headD 0 : ℝ)⟩

theorem exTime_early : ∀ i, Valid exTime.shape i → exTime.get i < 36159.75 := by
  intro i hi
  obtain ⟨a, b, rfl⟩ : ∃ a b, i = [a, b] := by
    have := hi.length_eq
    exact List.length_eq_two.1 this
  have ha : a < 3 := by
    have h : Valid [3, 1] [a, b] := hi
    simp only [Valid, List.forall₂_cons] at h
    exact h.1
  show ((a : ℕ) : ℝ) < _
  have : (a : ℝ) < 3 := by exact_mod_cast ha
  linarith

/-- C77_points: two points at three times in GSM. -/
example : ∃ th ph, transformPoints (-29442, -1501, 4797.1) exTheta (scalar 10) exTime "gsm" false .none = .ok (th, ph) ∧ th.shape = [3, 2] ∧ ph.shape = [3, 2] ∧
    ∃ r, Coord.transformPoints (-29442, -1501, 4797.1) "gsm" .none false [(100, 10, 2)] = .ok [r] ∧ th.get [2, 1] = r.map Prod.fst := by
  obtain ⟨th, ph, h, h1, h2, h3⟩ := C77_points (-29442, -1501, 4797.1) exTheta (scalar 10) exTime "gsm" false .none [] [3, 1] [3, 2] .default
    (.gsm _ _ _ (by decide)) (by decide) (fun _ => exTime_early)
  obtain ⟨r, hr, hr1, -⟩ := h3 [2, 1] (by simp [Valid])
  have e1 : exTheta.at [2, 1] = 100 := by
    show (if proj [2] [2, 1] = [0] then (45 : ℝ) else 100) = 100
    rw [if_neg (by decide)]
  have e2 : (scalar (10 : ℝ)).at [2, 1] = 10 := rfl
  have e3 : exTime.at [2, 1] = 2 := by
    show (((proj [3, 1] [2, 1]).headD 0 : ℕ) : ℝ) = 2
    have : (proj [3, 1] [2, 1]).headD 0 = 2 := by decide
    rw [this]
    norm_num
  rw [e1, e2, e3] at hr
  exact ⟨th, ph, h, h1, h2, r, hr, hr1⟩

/-- C77_points: three poles with SM at three times, and two dipoles with three times in GSM. -/
example : ∃ th ph, transformPoints (0, 0, 0) exTheta (scalar 10) exTime "sm" true (.tuple [⟨[3, 1], fun i => 10 + i.headD 0⟩, scalar 20]) = .ok (th, ph) ∧
    th.shape = [3, 2] := by
  obtain ⟨th, ph, h, h1, -⟩ := C77_points (0, 0, 0) exTheta (scalar 10) exTime "sm" true (.tuple [⟨[3, 1], fun i => 10 + i.headD 0⟩, scalar 20]) [3, 1] [3, 1] [3, 2]
    (.pole _ _ (by decide)) (.sm _ _ (by decide)) (by decide) (fun _ => exTime_early)
  exact ⟨th, ph, h, h1⟩

/-- C77_points, C77_gsm_dipoles: two dipoles and three times in GSM; `transform_vectors` does not accept them. -/
example : (∃ th ph, transformPoints (0, 0, 0) exTheta (scalar 10) exTime "gsm" false (.array ⟨[2, 3], fun _ => 1⟩) = .ok (th, ph) ∧ th.shape = [3, 2]) ∧
    transformVectors (0, 0, 0) exTheta (scalar 10) (scalar 1) (scalar 2) exTime "gsm" false (.array ⟨[2, 3], fun _ => 1⟩) = .error .valueError := by
  obtain ⟨th, ph, h, h1, -⟩ := C77_points (0, 0, 0) exTheta (scalar 10) exTime "gsm" false (.array ⟨[2, 3], fun _ => 1⟩) [2] [3, 2] [3, 2]
    (.array _ _ rfl) (.gsm _ _ _ (by decide)) (by decide) (fun _ => exTime_early)
  exact ⟨⟨th, ph, h, h1⟩, C77_gsm_dipoles _ _ _ _ _ _ _ _ [2] [3, 2] (.array _ _ rfl) (by decide) (by decide) exTime_early⟩

/-- C77_vectors: the point of `ex_vectors` twice, with components in a column. -/
example : ∃ th ph bt bp, transformVectors (0, 0, 0) ⟨[2], fun _ => 45⟩ (scalar 90) ⟨[3, 1], fun _ => 1⟩ (scalar 2) (scalar 0) "mag" false
      (.tuple [scalar 90, scalar 0]) = .ok (th, ph, bt, bp) ∧ th.shape = [2] ∧ bt.shape = [3, 2] ∧
    ∃ o, Coord.transformVectors (0, 0, 0) "mag" (.tuple [90, 0]) false [((45, 90), (1, 2), 0)] = .ok (some [o]) ∧
      bt.get [2, 1] = some o.2.1 := by
  obtain ⟨out, ho⟩ := Coord.ex_vectors
  obtain ⟨bases, -, hl, -⟩ := Coord.C36_vectors _ _ _ _ _ _ ho
  obtain ⟨o, rfl⟩ := List.length_eq_one_iff.1 hl
  obtain ⟨th, ph, bt, bp, h, h1, -, h2, -, h3⟩ := C77_vectors (0, 0, 0) ⟨[2], fun _ => 45⟩ (scalar 90) ⟨[3, 1], fun _ => 1⟩ (scalar 2) (scalar 0) "mag" false
    (.tuple [scalar 90, scalar 0]) [] [] [2] [3, 2] (.pole _ _ (by decide)) (.mag _ _) (fun h => absurd h (by decide)) (by decide) (by decide) (by decide)
    (fun h => absurd rfl h) (fun i _ => by norm_num) (fun _ => some [o]) (fun i _ => ho)
  exact ⟨th, ph, bt, bp, h, h1, h2, o, ho, ((h3 [2, 1] (by simp [Valid])).1 o rfl).2.2.1⟩

/-- C77_unknown: a system with geographic axes is not known. -/
example : transformPoints (0, 0, 0) exTheta (scalar 10) exTime "geo" false .none = .error .valueError :=
  (C77_unknown _ _ _ (scalar 1) (scalar 2) _ _ _ _ (by decide)).1

/-- C77_times: one of two times is too late. -/
example : transformPoints (0, 0, 0) exTheta (scalar 10) ⟨[2], fun i => if i = [0] then 0 else 40000⟩ "sm" false .none = .error .assertionError :=
  ((C77_times (0, 0, 0) exTheta (scalar 10) (scalar 1) (scalar 2) ⟨[2], fun i => if i = [0] then 0 else 40000⟩ false .none [] .default).1 "sm" (Or.inr rfl)
    [1] (by simp [Valid]) (by norm_num)).1

/-- C77_dipoles: the longitudes of the pole are an array, the colatitude is not; a coefficient for all. -/
example : transformPoints (0, 0, 0) exTheta (scalar 10) exTime "mag" false (.tuple [scalar 10, exTheta]) = .error .valueError :=
  (C77_dipoles _ _ _ (scalar 1) (scalar 2) _ _ _ _ (Or.inl ⟨_, _, rfl, by decide⟩)).1
example : transformPoints (0, 0, 0) exTheta (scalar 10) exTime "mag" false (.tuple [exTheta, scalar 1, scalar 2]) = .error .valueError :=
  (C77_dipoles _ _ _ (scalar 1) (scalar 2) _ _ _ _ (Or.inr (Or.inl ⟨_, _, _, rfl, by decide⟩))).1

/-- C77_shapes: two dipoles and three times in SM (which GSM accepts); three points and two. -/
example : transformPoints (0, 0, 0) exTheta (scalar 10) exTime "sm" false (.array ⟨[2, 3], fun _ => 1⟩) = .error .valueError :=
  (C77_shapes _ _ _ (scalar 1) (scalar 2) _ _ _ _ [2] (.array _ _ rfl) (fun _ => exTime_early) (Or.inr (Or.inl ⟨rfl, by decide⟩))).1
example : transformPoints (0, 0, 0) exTheta ⟨[3], fun _ => 1⟩ exTime "mag" false .none = .error .valueError :=
  (C77_shapes _ _ _ (scalar 1) (scalar 2) _ _ _ _ [] .default (fun _ => exTime_early) (Or.inr (Or.inr ⟨[], .mag _ _, by decide⟩))).1

/-- C77_refused: no points; a pole. -/
example : transformVectors (0, 0, 0) ⟨[0], fun _ => 1⟩ (scalar 10) (scalar 1) (scalar 2) exTime "gsm" false .none = .error .valueError :=
  C77_refused _ _ _ _ _ _ _ _ _ [] [3, 1] .default (.gsm _ _ _ (by decide)) (fun _ => exTime_early) (Or.inl (by simp))
example : transformVectors (0, 0, 0) ⟨[2], fun i => if i = [0] then 0 else 50⟩ (scalar 10) (scalar 1) (scalar 2) exTime "sm" true .none = .error .valueError :=
  C77_refused _ _ _ _ _ _ _ _ _ [] [3, 1] .default (.sm _ _ (by decide)) (fun _ => exTime_early)
    (Or.inr ⟨fun i _ => by
      show 0 ≤ (if i = [0] then (0 : ℝ) else 50) ∧ (if i = [0] then (0 : ℝ) else 50) ≤ 180
      split_ifs <;> norm_num, [0], by simp [Valid], Or.inl (by simp)⟩)

end ChaosMagPy.CoordArr
