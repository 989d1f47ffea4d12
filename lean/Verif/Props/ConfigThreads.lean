import Mathlib.Data.List.Induction
import Verif.Model.ConfigThreads
import Verif.Props.Config
/-!
# C74: threads and the configuration

Every number of threads, every program of each of them, every schedule.
-/
namespace ChaosMagPy.Config
open ChaosMagPy.Config.Spec

namespace Spec

/-- The keys that a program assigns. -/
def Touches : Prog → String → Prop
  | .set k _, j => j = k
  | .reset k, j => j = k
  | .load es, j => ∃ e ∈ es, j = e.1
  | .ctx k _ body, j => j = k ∨ Touches body j
  | .seq p q, j => Touches p j ∨ Touches q j
  | .tryExcept p, j => Touches p j
  | _, _ => False

/-- The program neither calls `fullreset` nor changes files. -/
def OnlyKeys : Prog → Prop
  | .fullreset => False
  | .createFile _ => False
  | .deleteFile _ => False
  | .ctx _ _ body => OnlyKeys body
  | .seq p q => OnlyKeys p ∧ OnlyKeys q
  | .tryExcept p => OnlyKeys p
  | _ => True

/-- The thread has nothing left to do. -/
def Finished (th : Thread) : Prop := th.1 = []

end Spec

/-! ### One thread -/

/-- A number of steps of one thread alone. -/
def alone (c : Ctx) : ℕ → State × Thread → State × Thread
  | 0, x => x
  | n + 1, x => alone c n (step c x.1 x.2)

theorem alone_add (c : Ctx) (m n : ℕ) (x : State × Thread) : alone c (m + n) x = alone c n (alone c m x) := by
  induction m generalizing x with
  | zero => rw [Nat.zero_add]; rfl
  | succ m ih =>
    rw [Nat.succ_add]
    exact ih _

theorem alone_succ (c : Ctx) (n : ℕ) (x : State × Thread) : alone c (n + 1) x = step c (alone c n x).1 (alone c n x).2 := alone_add c n 1 x

/-- What a thread is after a program was executed. -/
def after (r : State × Option Err) (ts : List Task) : State × Thread :=
  (r.1, match r.2 with
    | none => (ts, none)
    | some e => throwTo e ts)

theorem alone_step {c : Ctx} {s : State} {th : Thread} {x : State × Thread} (h : ∃ n, alone c n (step c s th) = x) : ∃ n, alone c n (s, th) = x := by
  obtain ⟨n, h⟩ := h
  exact ⟨n + 1, h⟩

theorem alone_trans {c : Ctx} {x y z : State × Thread} (h1 : ∃ n, alone c n x = y) (h2 : ∃ n, alone c n y = z) : ∃ n, alone c n x = z := by
  obtain ⟨m, rfl⟩ := h1
  obtain ⟨n, rfl⟩ := h2
  exact ⟨m + n, alone_add c m n x⟩

theorem unwind_run (p : Prog) (ts : List Task) (e : Err) : throwTo e (.run p :: ts) = throwTo e ts := rfl
theorem unwind_assign (k : String) (v : Val) (ts : List Task) (e : Err) : throwTo e (.assign k v :: ts) = throwTo e ts := rfl
theorem unwind_handler (ts : List Task) (e : Err) : throwTo e (.handler :: ts) = (ts, none) := rfl

/-- The steps of a thread that is alone execute its program. -/
theorem alone_exec (c : Ctx) (p : Prog) : ∀ (s : State) (ts : List Task), ∃ n, alone c n (s, (.run p :: ts, none)) = after (exec c p s) ts := by
  induction p with
  | skip => exact fun s ts => ⟨1, rfl⟩
  | set k v =>
    intro s ts
    refine ⟨1, ?_⟩
    simp only [alone, step, exec, stepSet]
    cases setItem c s k v <;> rfl
  | reset k =>
    intro s ts
    refine ⟨1, ?_⟩
    simp only [alone, step, exec, stepSet]
    cases Config.reset c s k <;> rfl
  | fullreset => exact fun s ts => ⟨1, rfl⟩
  | load es =>
    induction es with
    | nil => exact fun s ts => ⟨1, rfl⟩
    | cons e es ih =>
      intro s ts
      obtain ⟨k, v⟩ := e
      apply alone_step
      simp only [step, exec, stepSet, load]
      cases setItem c s k v with
      | error e => exact ⟨0, rfl⟩
      | ok s' => exact ih s' ts
  | ctx k v body ih =>
    intro s ts
    apply alone_step
    simp only [step, exec]
    cases s.cfg.get k with
    | none => exact ⟨0, rfl⟩
    | some old =>
      simp only
      apply alone_step
      simp only [step, stepSet]
      cases setItem c s k v with
      | error e => exact ⟨0, rfl⟩
      | ok s1 =>
        simp only
        refine alone_trans (ih s1 (.assign k old :: ts)) ?_
        generalize exec c body s1 = r
        obtain ⟨s2, o⟩ := r
        cases o with
        | some e => exact ⟨0, rfl⟩
        | none =>
          refine ⟨1, ?_⟩
          simp only [after, alone, step, stepSet]
          cases setItem c s2 k old <;> rfl
  | seq p q ihp ihq =>
    intro s ts
    apply alone_step
    simp only [step, exec]
    refine alone_trans (ihp s (.run q :: ts)) ?_
    generalize exec c p s = r
    obtain ⟨s1, o⟩ := r
    cases o with
    | some e => exact ⟨0, rfl⟩
    | none => exact ihq s1 ts
  | tryExcept p ih =>
    intro s ts
    apply alone_step
    simp only [step, exec]
    refine alone_trans (ih s (.handler :: ts)) ?_
    generalize exec c p s = r
    obtain ⟨s1, o⟩ := r
    cases o with
    | some e => exact ⟨0, rfl⟩
    | none => exact ⟨1, rfl⟩
  | raise => exact fun s ts => ⟨1, rfl⟩
  | createFile path => exact fun s ts => ⟨1, rfl⟩
  | deleteFile path => exact fun s ts => ⟨1, rfl⟩

theorem step_finished {c : Ctx} {s : State} {th : Thread} (h : Finished th) : step c s th = (s, th) := by
  unfold step
  rw [h]

theorem alone_finished {c : Ctx} {x : State × Thread} (h : Finished x.2) (n : ℕ) : alone c n x = x := by
  induction n with
  | zero => rfl
  | succ n ih => rw [alone, step_finished h]; exact ih

/-- Two runs of a thread alone that both ended have ended in the same way. -/
theorem alone_unique {c : Ctx} {x : State × Thread} {m n : ℕ} (hm : Finished (alone c m x).2) (hn : Finished (alone c n x).2) : alone c m x = alone c n x := by
  rcases le_total m n with h | h
  · obtain ⟨k, rfl⟩ := Nat.exists_eq_add_of_le h
    rw [alone_add, alone_finished hm]
  · obtain ⟨k, rfl⟩ := Nat.exists_eq_add_of_le h
    rw [alone_add, alone_finished hn]

theorem after_nil (r : State × Option Err) : after r [] = (r.1, ([], r.2)) := by
  obtain ⟨s, o⟩ := r
  cases o <;> rfl

/-! ### Many threads -/

/-- The tasks assign keys of `K` only and change nothing else. -/
def Local (K : String → Prop) (ts : List Task) : Prop :=
  ∀ t ∈ ts, match t with
    | .run p => OnlyKeys p ∧ ∀ k, Touches p k → K k
    | .assign k _ => K k
    | .handler => True

/-- The same files and the same values of the keys of `K`. -/
def SameOn (K : String → Prop) (s s' : State) : Prop := s.fs = s'.fs ∧ ∀ k, K k → s.cfg.get k = s'.cfg.get k

theorem Local.tail {K : String → Prop} {t : Task} {ts : List Task} (h : Local K (t :: ts)) : Local K ts := fun x hx => h x (List.mem_cons_of_mem _ hx)

theorem unwind_local {K : String → Prop} {ts us : List Task} (h : Local K ts) (hu : unwind ts = some us) : Local K us := by
  induction ts with
  | nil => cases hu
  | cons t ts ih =>
    cases t with
    | handler =>
      simp only [unwind, Option.some.injEq] at hu
      rw [← hu]; exact h.tail
    | run p => exact ih h.tail hu
    | assign k v => exact ih h.tail hu

theorem throwTo_local {K : String → Prop} {ts : List Task} (h : Local K ts) (e : Err) : Local K (throwTo e ts).1 := by
  unfold throwTo
  cases hu : unwind ts with
  | none => exact fun t ht => nomatch ht
  | some us => exact unwind_local h hu

/-- An assignment in two states that agree on `K`. -/
theorem setItem_same {c : Ctx} {K : String → Prop} {s s' : State} (h : SameOn K s s') (k : String) (v : Val) (hk : K k) :
    (∃ e, setItem c s k v = .error e ∧ setItem c s' k v = .error e) ∨
    ∃ w, setItem c s k v = .ok { s with cfg := s.cfg.set k w } ∧ setItem c s' k v = .ok { s' with cfg := s'.cfg.set k w } := by
  unfold setItem
  cases defEntry c k with
  | none => exact .inl ⟨_, rfl, rfl⟩
  | some dc =>
    obtain ⟨d, chk⟩ := dc
    simp only
    rw [h.1]
    cases chk.run c.py s'.fs v with
    | error e => exact .inl ⟨e, rfl, rfl⟩
    | ok w => exact .inr ⟨w, rfl, rfl⟩

theorem set_same {K : String → Prop} {s s' : State} (h : SameOn K s s') (k : String) (w : Val) :
    SameOn K { s with cfg := s.cfg.set k w } { s' with cfg := s'.cfg.set k w } := by
  refine ⟨h.1, fun j hj => ?_⟩
  simp only [Dict.get_set]
  split_ifs
  · rfl
  · exact h.2 j hj

/-- The effect of one step that assigns keys of `K` only. -/
structure StepOk (K : String → Prop) (s s' : State) (r r' : State × Thread) : Prop where
  same : SameOn K r.1 r'.1
  thread : r.2 = r'.2
  isLocal : Local K r.2.1
  fs : r.1.fs = s.fs
  others : ∀ k, ¬ K k → r.1.cfg.get k = s.cfg.get k

theorem stepSet_ok {c : Ctx} {K : String → Prop} {s s' : State} (h : SameOn K s s') (k : String) (v : Val) (hk : K k) {ts : List Task} (hl : Local K ts) :
    StepOk K s s' (stepSet (setItem c s k v) s ts) (stepSet (setItem c s' k v) s' ts) := by
  rcases setItem_same (c := c) h k v hk with ⟨e, h1, h2⟩ | ⟨w, h1, h2⟩
  · rw [h1, h2]
    exact ⟨h, rfl, throwTo_local hl e, rfl, fun _ _ => rfl⟩
  · rw [h1, h2]
    refine ⟨set_same h k w, rfl, hl, rfl, fun j hj => ?_⟩
    simp only [stepSet, Dict.get_set]
    rw [if_neg]
    rintro rfl
    exact hj hk

theorem local_cons {K : String → Prop} {t : Task} {ts : List Task} (ht : match t with
    | .run p => OnlyKeys p ∧ ∀ k, Touches p k → K k
    | .assign k _ => K k
    | .handler => True) (h : Local K ts) : Local K (t :: ts) := by
  intro x hx
  rcases List.mem_cons.1 hx with rfl | hx
  · exact ht
  · exact h x hx

theorem step_ok {c : Ctx} {K : String → Prop} {s s' : State} (h : SameOn K s s') (th : Thread) (hl : Local K th.1) :
    StepOk K s s' (step c s th) (step c s' th) := by
  obtain ⟨ts, err⟩ := th
  cases ts with
  | nil => exact ⟨h, rfl, hl, rfl, fun _ _ => rfl⟩
  | cons t ts =>
    have ht := hl t List.mem_cons_self
    have hts := Local.tail hl
    cases t with
    | handler => exact ⟨h, rfl, hts, rfl, fun _ _ => rfl⟩
    | assign k v => exact stepSet_ok h k v ht hts
    | run p =>
      obtain ⟨hp, hK⟩ : OnlyKeys p ∧ ∀ k, Touches p k → K k := ht
      cases p with
      | skip => exact ⟨h, rfl, hts, rfl, fun _ _ => rfl⟩
      | set k v => exact stepSet_ok h k v (hK k rfl) hts
      | reset k =>
        simp only [step, Config.reset]
        cases he : defEntry c k with
        | none => exact ⟨h, rfl, throwTo_local hts _, rfl, fun _ _ => rfl⟩
        | some dc =>
          obtain ⟨d, chk⟩ := dc
          exact stepSet_ok h k d (hK k rfl) hts
      | fullreset => exact absurd hp id
      | load es =>
        cases es with
        | nil => exact ⟨h, rfl, hts, rfl, fun _ _ => rfl⟩
        | cons e es =>
          obtain ⟨k, v⟩ := e
          refine stepSet_ok h k v (hK k ⟨_, List.mem_cons_self, rfl⟩) (local_cons ⟨trivial, ?_⟩ hts)
          rintro j ⟨e, he, rfl⟩
          exact hK _ ⟨e, List.mem_cons_of_mem _ he, rfl⟩
      | ctx k v body =>
        simp only [step]
        rw [← h.2 k (hK k (.inl rfl))]
        cases s.cfg.get k with
        | none => exact ⟨h, rfl, throwTo_local hts _, rfl, fun _ _ => rfl⟩
        | some old =>
          refine ⟨h, rfl, ?_, rfl, fun _ _ => rfl⟩
          exact local_cons (t := .assign k v) (hK k (.inl rfl)) (local_cons (t := .run body) ⟨hp, fun j hj => hK j (.inr hj)⟩
            (local_cons (t := .assign k old) (hK k (.inl rfl)) hts))
      | seq p q =>
        exact ⟨h, rfl, local_cons (t := .run p) ⟨hp.1, fun j hj => hK j (.inl hj)⟩ (local_cons (t := .run q) ⟨hp.2, fun j hj => hK j (.inr hj)⟩ hts),
          rfl, fun _ _ => rfl⟩
      | tryExcept p => exact ⟨h, rfl, local_cons (t := .run p) ⟨hp, hK⟩ (local_cons (t := .handler) trivial hts), rfl, fun _ _ => rfl⟩
      | raise => exact ⟨h, rfl, throwTo_local hts _, rfl, fun _ _ => rfl⟩
      | createFile path => exact absurd hp id
      | deleteFile path => exact absurd hp id

section
variable {ι : Type} [DecidableEq ι]

/-- The state of affairs after a schedule, compared with each thread alone. -/
theorem run_local (c : Ctx) (s0 : State) (progs : ι → Prog) (hprog : ∀ i, OnlyKeys (progs i))
    (hdis : ∀ i j k, i ≠ j → Touches (progs i) k → ¬ Touches (progs j) k) (σ : List ι) :
    ((World.start s0 progs).run c σ).state.fs = s0.fs ∧
    (∀ k, (∀ i, ¬ Touches (progs i) k) → ((World.start s0 progs).run c σ).state.cfg.get k = s0.cfg.get k) ∧
    ∀ i, Local (Touches (progs i)) (((World.start s0 progs).run c σ).threads i).1 ∧
      ((World.start s0 progs).run c σ).threads i = (alone c (σ.count i) (s0, ([.run (progs i)], none))).2 ∧
      SameOn (Touches (progs i)) ((World.start s0 progs).run c σ).state (alone c (σ.count i) (s0, ([.run (progs i)], none))).1 := by
  induction σ using List.reverseRecOn with
  | nil =>
    refine ⟨rfl, fun _ _ => rfl, fun i => ⟨?_, rfl, rfl, fun _ _ => rfl⟩⟩
    exact local_cons (t := .run (progs i)) ⟨hprog i, fun _ h => h⟩ (fun t ht => nomatch ht)
  | append_singleton σ j ih =>
    have hrun : (World.start s0 progs).run c (σ ++ [j]) = World.step c ((World.start s0 progs).run c σ) j := by
      unfold World.run
      rw [List.foldl_append]
      rfl
    rw [hrun]
    generalize (World.start s0 progs).run c σ = w at ih ⊢
    obtain ⟨ih1, ih2, ih3⟩ := ih
    obtain ⟨hl, hth, hs⟩ := ih3 j
    have hok := step_ok (c := c) hs (w.threads j) hl
    have hstate : (World.step c w j).state = (step c w.state (w.threads j)).1 := rfl
    refine ⟨?_, ?_, ?_⟩
    · rw [hstate, hok.fs, ih1]
    · intro k hk
      rw [hstate, hok.others k (hk j), ih2 k hk]
    · intro i
      by_cases hij : i = j
      · subst hij
        have hthr : (World.step c w i).threads i = (step c w.state (w.threads i)).2 := by
          simp [World.step]
        have hcount : (σ ++ [i]).count i = σ.count i + 1 := by
          rw [List.count_append, List.count_singleton_self]
        rw [hthr, hcount, hstate, alone_succ, ← hth]
        exact ⟨hok.isLocal, hok.thread, hok.same⟩
      · have hthr : (World.step c w j).threads i = w.threads i := by
          simp [World.step, hij]
        have hcount : (σ ++ [j]).count i = σ.count i := by
          rw [List.count_append, List.count_singleton]
          simp [Ne.symm hij]
        obtain ⟨a1, a2, a3⟩ := ih3 i
        rw [hthr, hcount, hstate]
        refine ⟨a1, a2, ?_, ?_⟩
        · rw [hok.fs]; exact a3.1
        · intro k hk
          rw [hok.others k (hdis i j k hij hk)]
          exact a3.2 k hk

/-- **C74.**  Threads whose programs assign different keys do not disturb each other: whatever the schedule is, a thread that has finished has ended like the
program alone (with the same exception, if any), its keys have the values they would have then, and keys that no program assigns keep theirs. -/
theorem C74_isolated (c : Ctx) (s0 : State) (progs : ι → Prog) (hprog : ∀ i, OnlyKeys (progs i))
    (hdis : ∀ i j k, i ≠ j → Touches (progs i) k → ¬ Touches (progs j) k) (schedule : List ι) :
    let w := (World.start s0 progs).run c schedule
    (∀ i, Finished (w.threads i) → (w.threads i).2 = (exec c (progs i) s0).2 ∧
      ∀ k, Touches (progs i) k → w.state.cfg.get k = (exec c (progs i) s0).1.cfg.get k) ∧
    ∀ k, (∀ i, ¬ Touches (progs i) k) → w.state.cfg.get k = s0.cfg.get k := by
  intro w
  obtain ⟨-, h2, h3⟩ := run_local c s0 progs hprog hdis schedule
  refine ⟨fun i hf => ?_, h2⟩
  obtain ⟨-, hth, hs⟩ := h3 i
  obtain ⟨n, hn⟩ := alone_exec c (progs i) s0 []
  rw [after_nil] at hn
  have heq := alone_unique (c := c) (m := schedule.count i) (n := n) (by rw [← hth]; exact hf) (by rw [hn]; rfl)
  rw [heq, hn] at hth hs
  exact ⟨by rw [hth], hs.2⟩

/-- **C74, progress.**  Each thread has finished as soon as it was scheduled a certain number of times that depends on its own program only: the others cannot
keep it from ending. -/
theorem C74_progress (c : Ctx) (s0 : State) (progs : ι → Prog) (hprog : ∀ i, OnlyKeys (progs i))
    (hdis : ∀ i j k, i ≠ j → Touches (progs i) k → ¬ Touches (progs j) k) (i : ι) :
    ∃ n, ∀ schedule : List ι, n ≤ schedule.count i → Finished (((World.start s0 progs).run c schedule).threads i) := by
  obtain ⟨n, hn⟩ := alone_exec c (progs i) s0 []
  rw [after_nil] at hn
  refine ⟨n, fun σ hσ => ?_⟩
  obtain ⟨-, -, h3⟩ := run_local c s0 progs hprog hdis σ
  rw [(h3 i).2.1]
  obtain ⟨k, hk⟩ := Nat.exists_eq_add_of_le hσ
  rw [hk, alone_add, hn]
  rw [alone_finished (show Finished ([], (exec c (progs i) s0).2) from rfl)]
  rfl

/-- **C74, contexts.**  Contexts over different keys in concurrent threads: after all of them ended without exception every key of the configuration has its old
value, whatever the schedule was (if the old values are accepted by their validators, see C01). -/
theorem C74_contexts (c : Ctx) (s0 : State) (key : ι → String) (val : ι → Val) (hkey : Function.Injective key)
    (hacc : ∀ k v d chk, s0.cfg.get k = some v → defEntry c k = some (d, chk) → chk.run c.py s0.fs v = .ok v) (schedule : List ι) :
    let w := (World.start s0 fun i => .ctx (key i) (val i) .skip).run c schedule
    (∀ i, w.threads i = ([], none)) → ∀ k, w.state.cfg.get k = s0.cfg.get k := by
  intro w hfin k
  obtain ⟨h1, h2⟩ := C74_isolated c s0 (fun i => .ctx (key i) (val i) .skip) (fun _ => trivial) (by
    intro i j k hij hi hj
    rcases hi with hi | hi
    · rcases hj with hj | hj
      · exact hij (hkey (hi.symm.trans hj))
      · exact hj
    · exact hi) schedule
  by_cases hk : ∃ i, k = key i
  · obtain ⟨i, rfl⟩ := hk
    have hf : Finished (w.threads i) := by rw [hfin i]; rfl
    obtain ⟨he, hv⟩ := h1 i hf
    have hv := hv (key i) (.inl rfl)
    rw [hv]
    have hx : exec c (.ctx (key i) (val i) .skip) s0 = ((exec c (.ctx (key i) (val i) .skip) s0).1, none) := by
      refine Prod.ext rfl ?_
      rw [← he]
      have := hfin i
      change (w.threads i).2 = none
      rw [this]
    obtain ⟨old, s1, s2, d, chk, u, a1, a2, a3, a4, a5, a6, -, -, a9⟩ := C05_context_restores c s0 _ (key i) (val i) .skip hx
    refine a9 ?_
    have hfs : s2.fs = s0.fs := by
      simp only [exec, Prod.mk.injEq] at a3
      obtain ⟨_, _, _, _, _, h⟩ := setItem_ok c s0 s1 (key i) (val i) a2
      rw [← a3.1, h]
    rw [hfs]
    exact hacc _ _ _ _ a1 a4
  · refine h2 k fun i hi => ?_
    rcases hi with hi | hi
    · exact hk ⟨i, hi⟩
    · exact hi

/-- **C74, finding.**  Contexts over the same key in two threads can leave a changed configuration behind although both ended normally: with the schedule in which
the second begins before and ends after the end of the first, the key keeps the value of the first context. -/
theorem C74_race (c : Ctx) (s0 : State) (k : String) (v1 v2 w1 w2 old : Val) (d : Val) (chk : Validator)
    (hold : s0.cfg.get k = some old) (he : defEntry c k = some (d, chk)) (hacc : chk.run c.py s0.fs old = .ok old)
    (h1 : chk.run c.py s0.fs v1 = .ok w1) (h1' : chk.run c.py s0.fs w1 = .ok w1) (h2 : chk.run c.py s0.fs v2 = .ok w2) :
    ∃ schedule : List Bool,
      let w := (World.start s0 fun b : Bool => if b then .ctx k v2 .skip else .ctx k v1 .skip).run c schedule
      w.threads false = ([], none) ∧ w.threads true = ([], none) ∧ w.state.cfg.get k = some w1 := by
  have hset : ∀ (s : State) (v u : Val), s.fs = s0.fs → chk.run c.py s0.fs v = .ok u → setItem c s k v = .ok { s with cfg := s.cfg.set k u } := by
    intro s v u hs hu
    unfold setItem
    rw [he]
    simp only
    rw [hs, hu]
  have e1 := hset s0 v1 w1 rfl h1
  have e2 := hset { s0 with cfg := s0.cfg.set k w1 } v2 w2 rfl h2
  have e3 := hset { s0 with cfg := (s0.cfg.set k w1).set k w2 } old old rfl hacc
  have e4 := hset { s0 with cfg := ((s0.cfg.set k w1).set k w2).set k old } w1 w1 rfl h1'
  have g1 : (s0.cfg.set k w1).get k = some w1 := by rw [Dict.get_set, if_pos rfl]
  refine ⟨[false, false, false, true, true, true, false, true], ?_⟩
  simp only [World.run, List.foldl_cons, List.foldl_nil, World.start, World.step, step, stepSet, hold, e1, g1, e2, e3, e4, Bool.false_eq_true, Bool.true_eq_false, reduceIte,
    true_and]
  rw [Dict.get_set, if_pos rfl]

end

/-! ### The hypotheses can be met -/

/-- Three threads with nested contexts, exceptions and files. -/
def threadProgs : Fin 3 → Prog
  | 0 => .tryExcept (.ctx "params.r_surf" (.sc (.int 10)) (.seq (.set "params.cdf_to_mjd" (.sc (.int 3))) .raise))
  | 1 => .ctx "params.dipole" (.list [some (.int 1), some (.int 2), some (.int 3)]) (.reset "params.r_cmb")
  | 2 => .load [("plots.figure_width", .sc (.int 2)), ("typo", .sc .none)]

theorem threadProgs_ok : (∀ i, OnlyKeys (threadProgs i)) ∧ ∀ i j k, i ≠ j → Touches (threadProgs i) k → ¬ Touches (threadProgs j) k := by
  constructor
  · intro i
    match i with
    | 0 => exact ⟨trivial, trivial⟩
    | 1 => trivial
    | 2 => trivial
  · intro i j k hij hi hj
    have h : ∀ i k, Touches (threadProgs i) k → (i = 0 ∧ (k = "params.r_surf" ∨ k = "params.cdf_to_mjd")) ∨
        (i = 1 ∧ (k = "params.dipole" ∨ k = "params.r_cmb")) ∨ (i = 2 ∧ (k = "plots.figure_width" ∨ k = "typo")) := by
      intro i k h
      match i with
      | 0 =>
        simp only [threadProgs, Touches, or_false] at h
        exact .inl ⟨rfl, h⟩
      | 1 =>
        simp only [threadProgs, Touches] at h
        exact .inr (.inl ⟨rfl, h⟩)
      | 2 =>
        obtain ⟨e, he, rfl⟩ := h
        simp only [List.mem_cons, List.not_mem_nil, or_false] at he
        rcases he with rfl | rfl
        · exact .inr (.inr ⟨rfl, .inl rfl⟩)
        · exact .inr (.inr ⟨rfl, .inr rfl⟩)
    rcases h i k hi with ⟨rfl, rfl | rfl⟩ | ⟨rfl, rfl | rfl⟩ | ⟨rfl, rfl | rfl⟩ <;>
      rcases h j _ hj with ⟨rfl, h | h⟩ | ⟨rfl, h | h⟩ | ⟨rfl, h | h⟩ <;>
      first
        | exact hij rfl
        | exact absurd h (by decide)

/-- A schedule in which all three threads come to their ends. -/
example : let w := (World.start (init demoCtx demoFS) threadProgs).run demoCtx (List.replicate 6 [(0 : Fin 3), 1, 2]).flatten
    (w.threads 0 = ([], none) ∧ w.threads 1 = ([], none) ∧ w.threads 2 = ([], some .keyError)) ∧
    w.state.cfg.get "params.r_surf" = some (.sc (.flt (.fin 10))) ∧ w.state.cfg.get "plots.figure_width" = some (.sc (.flt (.fin 2))) :=
  ⟨⟨rfl, rfl, rfl⟩, by decide +kernel, by decide +kernel⟩

/-- The race leaves 1 instead of 6371.2 in `params.r_surf`. -/
example : ∃ schedule : List Bool,
    let w := (World.start (init demoCtx demoFS) fun b : Bool => if b then .ctx "params.r_surf" (.sc (.int 2)) .skip
      else .ctx "params.r_surf" (.sc (.int 1)) .skip).run demoCtx schedule
    w.threads false = ([], none) ∧ w.threads true = ([], none) ∧ w.state.cfg.get "params.r_surf" = some (.sc (.flt (.fin 1))) :=
  C74_race demoCtx (init demoCtx demoFS) "params.r_surf" (.sc (.int 1)) (.sc (.int 2)) (.sc (.flt (.fin 1))) (.sc (.flt (.fin 2)))
    (.sc (.flt (.fin 6371.2))) (.sc (.flt (.fin 6371.2))) .float rfl rfl rfl rfl rfl rfl

end ChaosMagPy.Config
