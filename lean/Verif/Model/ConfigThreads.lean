import Verif.Model.Config
/-!
# Model of several threads that use `basicConfig`, `chaosmagpy/config_utils.py`

There is one configuration object for the whole process (config_utils.py:298-299) and no lock in the code. The steps of a thread that other threads can come in
between are: one assignment (`__setitem__`, lines 184-194), the reading of the old value in `context` (line 291), the assignment of the new one (line 292), the
assignment of the old one at the end (line 294), and one entry of `load` (lines 236-238). Simplifications: a call of `__setitem__` is one step (the validators
read nothing of the configuration; changes of files between check and assignment are not modelled), `fullreset` is one step (`dict.update`).
-/
namespace ChaosMagPy.Config

/-- What a thread still has to do. -/
inductive Task where
  /-- run a program -/
  | run (p : Prog)
  /-- an assignment of `context`, config_utils.py:292 and 294 -/
  | assign (k : String) (v : Val)
  /-- the end of a `try` block -/
  | handler

/-- A thread: what is left to do, and the exception that ended it. -/
abbrev Thread := List Task × Option Err

/-- The tasks after the innermost `try` block. -/
def unwind : List Task → Option (List Task)
  | [] => none
  | .handler :: ts => some ts
  | _ :: ts => unwind ts

/-- An exception: the rest of the innermost `try` block is left out, also the assignments at the end of contexts (there is no `finally`). -/
def throwTo (e : Err) (ts : List Task) : Thread :=
  match unwind ts with
  | none => ([], some e)
  | some ts => (ts, none)

/-- An assignment followed by `ts`. -/
def stepSet (r : Except Err State) (s : State) (ts : List Task) : State × Thread :=
  match r with
  | .ok s' => (s', (ts, none))
  | .error e => (s, throwTo e ts)

/-- One step of a thread; a finished thread does nothing. -/
def step (c : Ctx) (s : State) (th : Thread) : State × Thread :=
  match th.1 with
  | [] => (s, th)
  | .handler :: ts => (s, (ts, none))
  | .assign k v :: ts => stepSet (setItem c s k v) s ts
  | .run p :: ts =>
    match p with
    | .skip => (s, (ts, none))
    | .set k v => stepSet (setItem c s k v) s ts
    | .reset k => stepSet (Config.reset c s k) s ts
    | .fullreset => (Config.fullreset c s, (ts, none))
    | .load [] => (s, (ts, none))
    | .load ((k, v) :: es) => stepSet (setItem c s k v) s (.run (.load es) :: ts)
    | .ctx k v body =>
      match s.cfg.get k with
      | none => (s, throwTo .keyError ts)
      | some old => (s, (.assign k v :: .run body :: .assign k old :: ts, none))
    | .seq p q => (s, (.run p :: .run q :: ts, none))
    | .tryExcept p => (s, (.run p :: .handler :: ts, none))
    | .raise => (s, throwTo .user ts)
    | .createFile path =>
      ({ s with fs := { s.fs with pathExists := fun q => if q = path then true else s.fs.pathExists q } }, (ts, none))
    | .deleteFile path =>
      ({ s with fs := { s.fs with pathExists := fun q => if q = path then false else s.fs.pathExists q } }, (ts, none))

/-- All threads of the process and what they share. -/
structure World (ι : Type) where
  state : State
  threads : ι → Thread

/-- One step of the thread `i`. -/
def World.step {ι : Type} [DecidableEq ι] (c : Ctx) (w : World ι) (i : ι) : World ι :=
  let r := Config.step c w.state (w.threads i)
  { state := r.1, threads := fun j => if j = i then r.2 else w.threads j }

/-- The threads are scheduled in the given order. -/
def World.run {ι : Type} [DecidableEq ι] (c : Ctx) (w : World ι) (schedule : List ι) : World ι := schedule.foldl (World.step c) w

/-- All threads at the beginning of their programs. -/
def World.start {ι : Type} (s : State) (progs : ι → Prog) : World ι := { state := s, threads := fun i => ([.run (progs i)], none) }

end ChaosMagPy.Config
