import Verif.Props.MatfileShared
import Verif.Examples.Loaders
/-!
# Concrete cases for C85
-/
namespace ChaosMagPy.Matfile
open ChaosMagPy.Spec

/-- A file with time-dependent part only. -/
noncomputable def exPartial : Dict := [(Write.var "pp" (.struct (ppFields false exTdep)))].foldl Write.apply []

theorem exPartial_load (s : List String) :
    load "M" (some s) exPartial = .ok ⟨"M", some exTdep, none, none, none, none, none, none, some ⟨none, s⟩⟩ :=
  load_first false "M" exTdep ⟨⟨by simp [exTdep], by simp [exTdep], rfl, rfl⟩, by simp [exTdep], rfl, rfl⟩ (some s)

theorem exPartial_euler (v : MVal) : (loadMatfile exPartial).get "model_Euler" ≠ .ok v := by
  have : (loadMatfile exPartial).get "model_Euler" = .error .keyError := rfl
  rw [this]
  exact fun h => by cases h

theorem exPartial_list (s : List String) : listAfter s exPartial = s := by
  obtain ⟨br, o, c, st, ext, names, eul, cal, pre, l1, l2, l3, -⟩ := load_ok (exPartial_load s)
  have hr : eulerReached exPartial = .ok none := by
    have : (loadMatfile exPartial).get "model_Euler" = .error .keyError := rfl
    unfold eulerReached
    simp only [l1, l2, l3, this, bind, Except.bind, pure, Except.pure]
  unfold listAfter
  rw [hr]

/-- C85_list, C85_history, C85_no_euler, C85_growth: the file of the model with two satellites is loaded with the list `["a"]`, then the file without Euler angles with
the same list. -/
example : ∃ file, listAfter ["a"] file = ["a", "satellite_2"] ∧
    (loadAll ["a"] [("M", file), ("M", exPartial)]).1[0]? = some (load "M" (some ["a"]) file) ∧
    (loadAll ["a"] [("M", file), ("M", exPartial)]).1[1]? =
      some (.ok ⟨"M", some exTdep, none, none, none, none, none, none, some ⟨none, ["a", "satellite_2"]⟩⟩) ∧
    load "M" (some ["a"]) exPartial = .ok ⟨"M", some exTdep, none, none, none, none, none, none, some ⟨none, ["a"]⟩⟩ ∧
    (loadAll ["a"] [("M", file), ("M", exPartial)]).2 = ["a", "satellite_2"] := by
  obtain ⟨f, _, h⟩ := C58_exact false none exModel exMeta ex_storable ex_plain
  obtain ⟨md, e, b, hm, h1, h2, h3, -⟩ := C58_names "M" (some ["a", "b"]) f exModel _ h rfl
  have hh := C85_history ["a"] [("M", f), ("M", exPartial)] 0 "M" f rfl ⟨_, h1⟩
  have hmd : md = exMeta := by
    injection hm with hm
    exact hm.symm
  subst hmd
  obtain ⟨br, o, c, st, ext, names, eul, cal, pre, l1, l2, l3, -⟩ := load_ok h
  have hr : eulerReached f = .ok (some 2) := by
    unfold eulerReached
    simp only [l1, l2, l3, h1, bind, Except.bind, MVal.dict, h2, h3]
    rfl
  have ha : listAfter ["a"] f = ["a", "satellite_2"] := by
    unfold listAfter
    rw [hr]
    rfl
  refine ⟨f, ha, hh, ?_, exPartial_load _, ?_⟩
  · change some (load "M" (some (listAfter ["a"] f)) exPartial) = _
    rw [ha, exPartial_load]
  · change listAfter (listAfter ["a"] f) exPartial = _
    rw [ha]
    exact exPartial_list _

/-- C85_list. -/
example (file : Dict) := C85_list ["a"] [("M", file), ("M", exPartial)]

/-- C85_early: an empty file. -/
example : listAfter ["a"] [] = ["a"] := (C85_early ["a"] "M" [] (.inl ⟨_, rfl⟩)).1

/-- C85_no_euler: its conclusion for the same file without Euler angles as second call. -/
example (file : Dict) := C85_no_euler ["a"] [("M", file), ("M", exPartial)] 1 "M" exPartial rfl exPartial_euler

/-- C85_growth: the model with two satellites, list with one name. -/
example : ∃ file, listAfter ["a", "b"] file = ["a", "b"] := by
  obtain ⟨f, _, h⟩ := C58_exact false none exModel exMeta ex_storable ex_plain
  have := (C85_growth ["a", "b"] "M" f exModel _ exMeta h rfl rfl).1
  exact ⟨f, by simpa [exMeta, genericNames] using this⟩

end ChaosMagPy.Matfile
