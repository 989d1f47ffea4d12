import Verif.Props.ConfigHeap
import Verif.Props.ConfigText
import Verif.Props.ConfigThreads
/-!
# Concrete cases for C01, C02, C04, C05, C64, C73, C74

Each example applies one theorem to concrete arguments for which all its hypotheses hold.
-/
namespace ChaosMagPy.Config
open Spec

/-- All default values are accepted where all files exist. -/
theorem exDefault_ok (k : String) (d : Val) (chk : Validator) (he : defEntry demoCtx k = some (d, chk)) :
    chk.run demoCtx.py demoFS d = .ok d := by
  have h := defEntry_cases he
  simp only [defaults, List.mem_cons, List.not_mem_nil, or_false, Prod.mk.injEq] at h
  rcases h with ⟨rfl, rfl, rfl⟩ | ⟨rfl, rfl, rfl⟩ | ⟨rfl, rfl, rfl⟩ | ⟨rfl, rfl, rfl⟩ |
    ⟨rfl, rfl, rfl⟩ | ⟨rfl, rfl, rfl⟩ | ⟨rfl, rfl, rfl⟩ | ⟨rfl, rfl, rfl⟩ | ⟨rfl, rfl, rfl⟩ |
    ⟨rfl, rfl, rfl⟩ | ⟨rfl, rfl, rfl⟩ | ⟨rfl, rfl, rfl⟩ <;> first | rfl | decide +kernel

theorem exLookup {α β : Type} (k : String) (l : List (String × α × β)) :
    List.lookup k (l.map fun e => (e.1, e.2.1)) = (List.lookup k l).map Prod.fst := by
  induction l with
  | nil => rfl
  | cons e l ih =>
    obtain ⟨k', a, b⟩ := e
    simp only [List.map_cons, List.lookup_cons]
    cases k == k' <;> simp [ih]

/-- The initial values are the defaults. -/
theorem exInit (k : String) (v : Val) (h : (init demoCtx demoFS).cfg.get k = some v) : ∃ chk, defEntry demoCtx k = some (v, chk) := by
  have h' : (List.lookup k (defaults demoCtx.lib)).map Prod.fst = some v := by rw [← exLookup]; exact h
  cases h2 : List.lookup k (defaults demoCtx.lib) with
  | none => rw [h2] at h'; simp at h'
  | some e => rw [h2] at h'; exact ⟨e.2, by rw [defEntry, h2, ← Option.some.inj h']⟩

theorem exAccepted (k : String) (v : Val) (h : (init demoCtx demoFS).cfg.get k = some v) :
    ∃ d chk, defEntry demoCtx k = some (d, chk) ∧ chk.run demoCtx.py demoFS v = .ok v :=
  let ⟨chk, h⟩ := exInit k v h
  ⟨v, chk, h, exDefault_ok k v chk h⟩

/-- C01_values_reaccepted after `demoProg`: the dates offset was set to 3 and is accepted again. -/
example : checkInt demoCtx.py (.sc (.int 3)) = .ok (.sc (.int 3)) := by
  rcases C01_values_reaccepted demoCtx demoFS demoProg demo_stable.1 "params.cdf_to_mjd" (.sc (.int 3)) (.sc (.int 730485)) .int (by decide +kernel) rfl with h | h
  · exact h
  · exact absurd h.1 (by decide)

/-- C02_assignment: a value of the wrong length is refused and nothing changes. -/
example : exec demoCtx (.set "params.ellipsoid" (.list [some (.int 1)])) (init demoCtx demoFS) = (init demoCtx demoFS, some .valueError) :=
  ((C02_assignment demoCtx (init demoCtx demoFS) "params.ellipsoid" (.list [some (.int 1)]) rfl).2 _ (.vector 2) rfl).1 _ rfl

/-- C04_save_load: the initial configuration saved and loaded over another one. -/
example : ∃ s', load demoCtx (init demoCtx demoFS) (save (init demoCtx demoFS).cfg) = (s', none) ∧ s'.cfg = (init demoCtx demoFS).cfg ∧ s'.fs = demoFS :=
  C04_save_load demoCtx (init demoCtx demoFS) (init demoCtx demoFS) rfl rfl exAccepted (fun k v h => by
    obtain ⟨chk, h⟩ := exInit k v h
    have h := defEntry_cases h
    simp only [defaults, List.mem_cons, List.not_mem_nil, or_false, Prod.mk.injEq] at h
    rcases h with ⟨rfl, rfl, rfl⟩ | ⟨rfl, rfl, rfl⟩ | ⟨rfl, rfl, rfl⟩ | ⟨rfl, rfl, rfl⟩ |
      ⟨rfl, rfl, rfl⟩ | ⟨rfl, rfl, rfl⟩ | ⟨rfl, rfl, rfl⟩ | ⟨rfl, rfl, rfl⟩ | ⟨rfl, rfl, rfl⟩ |
      ⟨rfl, rfl, rfl⟩ | ⟨rfl, rfl, rfl⟩ | ⟨rfl, rfl, rfl⟩ <;> first | trivial | rfl)

/-- C04_reachable: the configuration after `demoProg`, loaded after further assignments. -/
example := C04_reachable demoCtx demoFS demoProg (.set "params.r_surf" (.sc (.int 1))) demo_stable.2.2 demo_stable.1 trivial demo_stable.2.1

/-- C05_context_restores: a context whose body changes another key. -/
example : ∃ s', exec demoCtx (.ctx "params.r_surf" (.sc (.int 1)) (.set "params.r_cmb" (.sc (.int 2)))) (init demoCtx demoFS) = (s', none) ∧
    s'.cfg.get "params.r_surf" = some (.sc (.flt (.fin 6371.2))) := by
  refine ⟨_, rfl, ?_⟩
  obtain ⟨old, s1, s2, d, chk, w, h1, -, -, h4, h5, h6, -⟩ := C05_context_restores demoCtx (init demoCtx demoFS) _ "params.r_surf" (.sc (.int 1)) (.set "params.r_cmb" (.sc (.int 2))) rfl
  cases h1; cases h4; cases h5
  exact h6

/-- C05_exception_leaks: the override stays after an exception in the body. -/
example : ∃ s2, exec demoCtx (.ctx "params.r_surf" (.sc (.int 1)) .raise) (init demoCtx demoFS) = (s2, some .user) ∧
    s2.cfg.get "params.r_surf" = some (.sc (.flt (.fin 1))) :=
  ⟨_, C05_exception_leaks demoCtx (init demoCtx demoFS) _ _ "params.r_surf" (.sc (.int 1)) (.sc (.flt (.fin 6371.2))) .raise .user rfl rfl rfl, rfl⟩

/-- C05_nested_contexts_restore: the same key twice and another one. -/
example : exec demoCtx (nest [("params.r_surf", .sc (.int 1)), ("params.cdf_to_mjd", .sc (.int 0)), ("params.r_surf", .sc (.int 2))] .skip)
    (init demoCtx demoFS) = (init demoCtx demoFS, none) :=
  C05_nested_contexts_restore demoCtx _ _ exAccepted (fun e he => by
    simp only [List.mem_cons, List.not_mem_nil, or_false] at he
    rcases he with rfl | rfl | rfl
    · exact ⟨by decide, _, .float, _, rfl, rfl⟩
    · exact ⟨by decide, _, .int, _, rfl, rfl⟩
    · exact ⟨by decide, _, .float, _, rfl, rfl⟩)

/-- C74_isolated and C74_progress: three threads with different keys, any schedule. -/
example (schedule : List (Fin 3)) := C74_isolated demoCtx (init demoCtx demoFS) threadProgs threadProgs_ok.1 threadProgs_ok.2 schedule
example := C74_progress demoCtx (init demoCtx demoFS) threadProgs threadProgs_ok.1 threadProgs_ok.2 1

/-- C74_contexts: two threads with contexts over two keys. -/
example (schedule : List Bool) := C74_contexts demoCtx (init demoCtx demoFS) (fun b : Bool => if b then "params.r_surf" else "params.r_cmb")
  (fun _ => .sc (.int 1)) (by decide) (fun k v d chk h hd => by
    obtain ⟨chk', h'⟩ := exInit k v h
    rw [h'] at hd
    cases hd
    exact exDefault_ok k v _ h') schedule

end ChaosMagPy.Config

namespace ChaosMagPy.ConfigText
open ChaosMagPy.Config ChaosMagPy.Config.Spec

/-- C04_text for two entries, one of them a string with characters that need escapes. -/
example (s : State) := C04_text decimals8 demoCtx s [("b", .list [some (.int (-7)), some (.str "x\"\\😀")]), ("a", .sc (.bool true))] (by decide)
  (fun kv h => by
    simp only [List.mem_cons, List.not_mem_nil, or_false] at h
    rcases h with rfl | rfl <;> simp [Printable, PrintableSc])

/-- C04_text_reachable and C73_config after `demoProg`. -/
example := C04_text_reachable decimals8 demoCtx demoFS demoProg .skip demo_stable.2.2 demo_stable.1 trivial demo_stable.2.1 demo_floats.1 demo_floats.2.1 demo_floats.2.2

/-- C73_config: the file without its last character is refused. -/
example (s : State) : ∃ t c, saveText decimals8 (exec demoCtx demoProg (init demoCtx demoFS)).1.cfg = t ++ [c] ∧
    loadText decimals8 demoCtx s t = (s, some .valueError) := by
  obtain ⟨t, c, h⟩ : ∃ t c, saveText decimals8 (exec demoCtx demoProg (init demoCtx demoFS)).1.cfg = t ++ [c] := by
    have hne : saveText decimals8 (exec demoCtx demoProg (init demoCtx demoFS)).1.cfg ≠ [] := by
      unfold saveText; split_ifs <;> simp
    exact ⟨_, _, (List.dropLast_append_getLast hne).symm⟩
  exact ⟨t, c, h, C73_config decimals8 demoCtx demoCtx demoFS demoProg s demo_floats.1 demo_floats.2.1 demo_floats.2.2 t [c] (by simp) h⟩

end ChaosMagPy.ConfigText

namespace ChaosMagPy.ConfigHeap
open ChaosMagPy.Config (Sc Val Err FS Ctx State Validator defEntry defaults)

/-- C64_refines and C64_writes: an array is assigned and then overwritten. -/
example (c : Ctx) (fs : FS) := C64_refines c fs (.seq (.newArray [.int 1, .int 2, .int 3]) (.set "params.dipole" (.var 0))) ⟨trivial, trivial⟩
example (c : Ctx) (fs : FS) := C64_writes c fs (.seq (.newArray [.int 1, .int 2, .int 3]) (.set "params.dipole" (.var 0))) (.write 0 0 (.int 9)) ⟨trivial, trivial⟩ trivial

/-- C64_protected: after the resets the user takes the dipole array and overwrites it; a reset brings the default back. -/
example (c : Ctx) (fs : FS) (x : Sc) := C64_protected c (copied c fs) (.seq (.getItem "params.dipole") (.write 0 0 x)) ⟨trivial, trivial⟩
  (copied_private c fs).1 (copied_private c fs).2.1 (copied_private c fs).2.2 "params.dipole" _ (.vector 3) rfl (by decide)

/-- C64_context: the body takes the array inside the context and overwrites it. -/
example (c : Ctx) (fs : FS) (x : Sc) : ∃ h', exec c (.ctx "params.dipole" (.lit (.arr [.int 1, .int 2, .int 3])) (spoil x)) (copied c fs) = (h', none) ∧
    (seen h').cfg.get "params.dipole" = (seen (copied c fs)).cfg.get "params.dipole" := by
  have h := copied_entry c fs x
  refine ⟨_, Prod.ext rfl h.2.2.2.2, ?_⟩
  refine C64_context c (copied c fs) _ "params.dipole" _ (spoil x) 2 (Or.inl rfl) h.1 le_rfl h.2.1 h.2.2.1 ?_ h.2.2.2.1 (Prod.ext rfl h.2.2.2.2)
  intro j hj
  have hc : (copied c fs).cfg = [("params.r_surf", .imm (.sc (.flt (.fin 6371.2)))), ("params.r_cmb", .imm (.sc (.flt (.fin 3485)))),
    ("params.dipole", .ref 2), ("params.ellipsoid", .ref 3), ("params.CHAOS_version", .imm (.sc (.str "7.18"))),
    ("params.cdf_to_mjd", .imm (.sc (.int 730485))),
    ("file.RC_index", .imm (.sc (.str (c.lib ++ "/RC_index.h5")))),
    ("file.GSM_spectrum", .imm (.sc (.str (c.lib ++ "/frequency_spectrum_gsm.npz")))),
    ("file.SM_spectrum", .imm (.sc (.str (c.lib ++ "/frequency_spectrum_sm.npz")))),
    ("file.Earth_conductivity", .imm (.sc (.str (c.lib ++ "/Earth_conductivity.dat")))),
    ("file.shp_coastline", .imm (.sc (.str (c.lib ++ "/ne_110m_coastline.zip")))),
    ("plots.figure_width", .imm (.sc (.flt (.fin 6.3))))] := rfl
  rw [hc] at hj
  simpa using hj

/-- C64_context_alias. -/
example (c : Ctx) (fs : FS) := C64_context_alias c fs (.int 0) [.int 1, .int 2, .int 3] rfl

end ChaosMagPy.ConfigHeap
