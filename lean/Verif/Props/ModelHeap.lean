import Verif.Lemmas.ModelHeap
import Verif.Lemmas.Matfile
import Verif.Props.ShcModel
/-!
# C75: models and the arrays of the caller

For all programs that create arrays, slices, models, pp-dictionaries and coefficients and write into arrays.
-/
namespace ChaosMagPy.ModelHeap
open ChaosMagPy.Matfile (Arr)
open ChaosMagPy.PPoly (Base Extrap)

theorem getD_drop (l : List ℝ) (n i : ℕ) : (l.drop n).getD i 0 = l.getD (n + i) 0 := by
  simp only [List.getD_eq_getElem?_getD, List.getElem?_drop]

theorem effOrder_pos {order : Option ℕ} {rows : ℕ} (ho : ∀ o, order = some o → 0 < o) (hr : 0 < rows) : 0 < effOrder order rows := by
  unfold effOrder
  cases order with
  | none => exact hr
  | some o => exact lt_min (ho o rfl) hr

/-- A model with the last rows of an array `C` with three axes. -/
theorem denote_tail {heap : List Block} {m : Model} {B : List ℝ} {order : Option ℕ} {C : Arr} {k p d : ℕ} (hC : C.shape = [k, p, d]) (hk : 0 < k)
    (ho : ∀ o, order = some o → 0 < o) (hB : (m.breaks.read heap).data = doubled B) (h3 : m.order = effOrder order k)
    (h4 : m.coeffs.read heap = ⟨effKeep order k :: [p, d], C.data.drop ((k - effKeep order k) * [p, d].prod)⟩) (s : List ℕ) :
    m.denote heap = documented ⟨s, B⟩ order C := by
  have hp := effOrder_pos ho hk
  have hkeep : effKeep order k = effOrder order k := by rw [effKeep, if_neg hp.ne']
  have hsh : m.coeffs.shape = [effOrder order k, p, d] := by
    have := congrArg Arr.shape h4
    rw [hkeep] at this
    exact this
  unfold Model.denote documented Base.init
  rw [hB, h3, hsh, h4, hC, hkeep]
  simp only [List.getLastD_cons, List.getLastD_nil, List.getD_cons_zero, List.getD_cons_succ, doubled, Base.mk.injEq, true_and, Option.some.injEq]
  refine ⟨rfl, ?_⟩
  funext i j l
  simp only [cube, hC, List.getD_cons_zero, List.getD_cons_succ, List.getLastD_cons, List.getLastD_nil]
  rw [getD_drop]
  change C.data.getD _ 0 = C.data.getD (((k - effOrder order k + i) * p + j) * d + l) 0
  congr 1
  simp only [List.prod_cons, List.prod_nil]
  ring

/-- What a model made from coefficients with three axes stands for. -/
theorem Built.denote {w w' : World} {B : List ℝ} {order : Option ℕ} {c : Arg} {m : Model} (h : Built w B order c w' m) {C : Arr} (hc : w.arg c = some C)
    {k p d : ℕ} (hC : C.shape = [k, p, d]) (hk : 0 < k) (ho : ∀ o, order = some o → 0 < o) (s : List ℕ) :
    m.denote w'.heap = documented ⟨s, B⟩ order C := by
  obtain ⟨a, rows, s', h1, h2, h3, h4, -⟩ := h.readC
  rw [hc] at h1
  obtain rfl := Option.some.inj h1
  rw [hC] at h2
  obtain ⟨rfl, rfl⟩ : k = rows ∧ [p, d] = s' := by simpa using h2
  exact denote_tail hC hk ho h.readB h3 h4 s

theorem asarray_isSome {w : World} (heap : List Block) {x : Arg} {a : Arr} (h : w.arg x = some a) : ∃ r, asarray w heap x = some r := by
  cases x with
  | list b =>
    simp only [World.arg] at h
    split at h
    · rename_i hb
      exact ⟨_, by rw [asarray, if_pos hb]⟩
    · cases h
  | var i =>
    simp only [World.arg, World.value, Option.map_eq_some_iff] at h
    obtain ⟨v, hv, -⟩ := h
    exact ⟨_, by rw [asarray, hv]; rfl⟩

theorem construct_isSome {w : World} (hw : WF w) {b c : Arg} {B C : Arr} (hb : w.arg b = some B) (hc : w.arg c = some C) (hC : C.shape ≠ [])
    (order : Option ℕ) : ∃ w', construct w b order c = some w' := by
  obtain ⟨⟨heap, v⟩, h1⟩ := asarray_isSome w.heap hb
  have h1' : asarray w (w.heap ++ []) b = some (heap, v) := by simpa using h1
  obtain ⟨hs, a, f1, f2, f3, -⟩ := asarray_spec hw h1'
  rw [List.append_nil] at f1
  obtain ⟨hs1, e1, -⟩ := initBreaks_spec heap v f3
  obtain ⟨⟨heap2, v2⟩, h2⟩ := asarray_isSome (initBreaks heap v).1 hc
  have h3 : asarray w (w.heap ++ (hs ++ hs1)) c = some (heap2, v2) := by rw [← h2, e1, f1, List.append_assoc]
  obtain ⟨hs2, a2, -, -, -, g4, g5, -⟩ := asarray_spec hw h3
  rw [hc] at g4
  obtain rfl := Option.some.inj g4
  have hsh : v2.shape ≠ [] := by
    have := congrArg Arr.shape g5
    rw [show v2.shape = C.shape from this]
    exact hC
  cases hv2 : v2.shape with
  | nil => exact absurd hv2 hsh
  | cons r s =>
    rw [← Option.isSome_iff_exists]
    unfold construct
    rw [h1]
    simp only [build, h2, initCoeffs, hv2]
    rfl

/-- The value of a variable and what a model stands for, in the form used below. -/
theorem seen_of {w : World} {n : ℕ} {m : Model} (h : w.models[n]? = some m) : w.seen n = some (m.denote w.heap) := by simp [World.seen, h]

theorem denote_append {heap : List Block} {m : Model} (h1 : m.breaks.addr < heap.length) (h2 : m.coeffs.addr < heap.length) (hs : List Block) :
    m.denote (heap ++ hs) = m.denote heap := by
  simp only [Model.denote, read_append h1, read_append h2]

theorem getElem?_append_some {α : Type} {l l' : List α} {n : ℕ} {a : α} (h : l[n]? = some a) : (l ++ l')[n]? = some a := by
  rw [List.getElem?_append_left (List.getElem?_eq_some_iff.1 h).1, h]

/-- Operations that do not write change no value of a variable and no model. -/
theorem Grow.seen {w w' : World} (hw : WF w) {op : Op} {hs : List Block} {es : List View} {ms : List Model} (g : Grow w op w' hs es ms) {n : ℕ} {m : Model}
    (hm : w.models[n]? = some m) : w'.models[n]? = some m ∧ m.denote w'.heap = m.denote w.heap := by
  have hin := hw.models m (List.mem_of_getElem? hm)
  exact ⟨by rw [g.models]; exact getElem?_append_some hm, by rw [g.heap, denote_append hin.1.1 hin.2.1]⟩

theorem Grow.value {w w' : World} (hw : WF w) {op : Op} {hs : List Block} {es : List View} {ms : List Model} (g : Grow w op w' hs es ms) {i : ℕ} {v : View}
    (hv : w.env[i]? = some v) : w'.env[i]? = some v ∧ v.read w'.heap = v.read w.heap := by
  have hin := hw.env v (List.mem_of_getElem? hv)
  exact ⟨by rw [g.env]; exact getElem?_append_some hv, by rw [g.heap, read_append hin.1]⟩

theorem written_seen {w : World} (hw : WF w) {v : View} (hv : v ∈ w.env) {j : ℕ} (hj : j < v.size) (x : ℝ) {m : Model}
    (h1 : ¬ Shares v m.breaks) (h2 : ¬ Shares v m.coeffs) : m.denote (written w v j x).heap = m.denote w.heap := by
  have := (hw.env v hv).1
  simp only [Model.denote, read_written_other this hj h1, read_written_other this hj h2]

theorem quiet_model {w : World} (hw : WF w) {n : ℕ} {m : Model} (hm : w.models[n]? = some m) (op : Op)
    (hq : ∀ i j x, op = .write i j x → ¬ w.Touches i n) :
    (attempt w op).models[n]? = some m ∧ m.denote (attempt w op).heap = m.denote w.heap := by
  unfold attempt
  cases h : step w op with
  | none => exact ⟨hm, rfl⟩
  | some w' =>
    rcases step_spec hw h with ⟨i, j, x, v, rfl, hv, hj, rfl⟩ | ⟨_, _, _, g⟩
    · have hno := hq i j x rfl
      refine ⟨hm, written_seen hw (List.mem_of_getElem? hv) hj x ?_ ?_⟩
      · exact fun hs => hno ⟨v, m, hv, hm, Or.inl hs⟩
      · exact fun hs => hno ⟨v, m, hv, hm, Or.inr hs⟩
    · exact g.seen hw hm

theorem quiet_run (n : ℕ) (m : Model) : ∀ (ops : List Op) (w : World), WF w → w.models[n]? = some m → Quiet n w ops →
    (run w ops).models[n]? = some m ∧ m.denote (run w ops).heap = m.denote w.heap
  | [], _, _, hm, _ => ⟨hm, rfl⟩
  | op :: ops, w, hw, hm, hq => by
    obtain ⟨h1, h2⟩ := quiet_model hw hm op hq.1
    obtain ⟨h3, h4⟩ := quiet_run n m ops (attempt w op) (attempt_wf hw op) h1 hq.2
    exact ⟨h3, h4.trans h2⟩

/-- **C75.** After any program, constructing a model from break points and coefficients with three axes (`k > 0` rows) gives the documented model of the
present values of the arguments, and changes neither an earlier model nor the value of a variable. -/
theorem C75_constructed (pre : List Op) (b c : Arg) (order : Option ℕ) (B C : Arr) (k p d : ℕ)
    (hb : (run start pre).arg b = some B) (hc : (run start pre).arg c = some C) (hC : C.shape = [k, p, d]) (hk : 0 < k) (ho : ∀ o, order = some o → 0 < o) :
    (run start (pre ++ [.model b order c])).models.length = (run start pre).models.length + 1 ∧
    (run start (pre ++ [.model b order c])).seen (run start pre).models.length = some (documented B order C) ∧
    (∀ n < (run start pre).models.length, (run start (pre ++ [.model b order c])).seen n = (run start pre).seen n) ∧
    (∀ i, (run start (pre ++ [.model b order c])).value i = (run start pre).value i) := by
  have hw := run_wf start_wf pre
  rw [run_append]
  generalize run start pre = w at *
  obtain ⟨w', hw'⟩ := construct_isSome hw hb hc (by rw [hC]; simp) order
  have hat : run w [.model b order c] = w' := by simp [run, attempt, step, hw']
  rw [hat]
  obtain ⟨m, B', h1, h2, h3, -⟩ := construct_spec hw hw'
  rw [hb] at h1
  obtain rfl := Option.some.inj h1
  obtain ⟨hs, hh⟩ := h2.heap
  refine ⟨by rw [h2.models]; simp, ?_, fun n hn => ?_, fun i => ?_⟩
  · rw [seen_of (m := m) (by rw [h2.models]; simp)]
    exact congrArg some (h2.denote hc hC hk ho B.shape)
  · have hm := List.getElem?_eq_getElem hn
    have hin := hw.models _ (List.getElem_mem hn)
    rw [seen_of hm, seen_of (m := w.models[n]) (by rw [h2.models]; exact getElem?_append_some hm), hh, denote_append hin.1.1 hin.2.1]
  · simp only [World.value, h2.env]
    cases hv : w.env[i]? with
    | none => rfl
    | some v => simp only [Option.map_some, hh, read_append (hw.env v (List.mem_of_getElem? hv)).1]

/-- **C75.** A model stands for the same piecewise polynomial as long as nothing is written into an array that shares memory with its break points or
coefficients, whatever else the program does (other models, evaluations, pp-dictionaries, slices, other writes). -/
theorem C75_frame (pre ops : List Op) (n : ℕ) (hn : n < (run start pre).models.length) (hq : Quiet n (run start pre) ops) :
    (run start (pre ++ ops)).seen n = (run start pre).seen n := by
  rw [run_append]
  have hm := List.getElem?_eq_getElem hn
  obtain ⟨h1, h2⟩ := quiet_run n _ ops _ (run_wf start_wf pre) hm hq
  rw [seen_of hm, seen_of h1, h2]

/-- Variables and models are never lost. -/
theorem persist_step {w : World} (hw : WF w) (op : Op) : (∀ (i : ℕ) (v : View), w.env[i]? = some v → (attempt w op).env[i]? = some v) ∧
    (∀ (n : ℕ) (m : Model), w.models[n]? = some m → (attempt w op).models[n]? = some m) := by
  unfold attempt
  cases h : step w op with
  | none => exact ⟨fun _ _ h => h, fun _ _ h => h⟩
  | some w' =>
    rcases step_spec hw h with ⟨i, j, x, v, rfl, hv, hj, rfl⟩ | ⟨hs, es, ms, g⟩
    · exact ⟨fun _ _ h => h, fun _ _ h => h⟩
    · exact ⟨fun i v hv => (g.value hw hv).1, fun n m hm => (g.seen hw hm).1⟩

theorem persist : ∀ (ops : List Op) {w : World}, WF w → (∀ (i : ℕ) (v : View), w.env[i]? = some v → (run w ops).env[i]? = some v) ∧
    (∀ (n : ℕ) (m : Model), w.models[n]? = some m → (run w ops).models[n]? = some m)
  | [], _, _ => ⟨fun _ _ h => h, fun _ _ h => h⟩
  | op :: ops, w, hw => by
    obtain ⟨h1, h2⟩ := persist_step hw op
    obtain ⟨h3, h4⟩ := persist ops (attempt_wf hw op)
    exact ⟨fun i v h => h3 i v (h1 i v h), fun n m h => h4 n m (h2 n m h)⟩

/-- Nothing but the model `n` itself refers to the addresses in `S`. -/
structure Private (n : ℕ) (S : ℕ → Prop) (w : World) : Prop where
  bound : ∀ a, S a → a < w.heap.length
  env : ∀ v ∈ w.env, ¬ S v.addr
  models : ∀ k m, k ≠ n → w.models[k]? = some m → ¬ S m.breaks.addr ∧ ¬ S m.coeffs.addr

theorem private_step {n : ℕ} {S : ℕ → Prop} {w : World} (hw : WF w) (hn : n < w.models.length) (hp : Private n S w) (op : Op) (hop : op ≠ .getBreaks n ∧ op ≠ .getCoeffs n) :
    (∀ u : View, S u.addr → u.read (attempt w op).heap = u.read w.heap) ∧ Private n S (attempt w op) := by
  unfold attempt
  cases h : step w op with
  | none => exact ⟨fun _ _ => rfl, hp⟩
  | some w' =>
    rcases step_spec hw h with ⟨i, j, x, v, rfl, hv, hj, rfl⟩ | ⟨hs, es, ms, g⟩
    · refine ⟨fun u hu => ?_, ⟨fun a ha => ?_, hp.env, hp.models⟩⟩
      · have hmem : v ∈ w.env := List.mem_of_getElem? hv
        refine read_written_other (hw.env v hmem).1 hj ?_
        rintro ⟨ha, -⟩
        exact hp.env v hmem (ha ▸ hu)
      · simpa [written] using hp.bound a ha
    · have hfrom : ∀ v, From w v → ¬ S v.addr := by
        rintro v (hf | ⟨u, hu, hf⟩) hS
        · have := hp.bound _ hS
          omega
        · rw [← hf] at hS
          exact hp.env u hu hS
      refine ⟨fun u hu => ?_, ⟨fun a ha => ?_, fun v hv => ?_, fun k m hk hmk => ?_⟩⟩
      · simp only [Option.getD_some, g.heap]
        exact read_append (hp.bound _ hu) hs
      · have := hp.bound a ha
        simp only [Option.getD_some, g.heap, List.length_append]
        omega
      · simp only [Option.getD_some, g.env, List.mem_append] at hv
        rcases hv with hv | hv
        · exact hp.env v hv
        · rcases g.fromE v hv with hf | ⟨k, m, hk, hf⟩
          · exact hfrom v hf
          · have hkn : k ≠ n := by
              rintro rfl
              rcases hf with ⟨hf, -⟩ | ⟨hf, -⟩
              · exact hop.1 hf
              · exact hop.2 hf
            have := hp.models k m hkn hk
            rcases hf with ⟨-, rfl⟩ | ⟨-, rfl⟩
            · exact this.1
            · exact this.2
      · simp only [Option.getD_some, g.models] at hmk
        by_cases hl : k < w.models.length
        · rw [List.getElem?_append_left hl] at hmk
          exact hp.models k m hk hmk
        · rw [List.getElem?_append_right (by omega)] at hmk
          have := g.fromM m (List.mem_of_getElem? hmk)
          exact ⟨hfrom _ this.1, hfrom _ this.2⟩

theorem private_run {n : ℕ} {S : ℕ → Prop} : ∀ (ops : List Op) {w : World}, WF w → n < w.models.length → Private n S w → NoAttr n ops →
    ∀ u : View, S u.addr → u.read (run w ops).heap = u.read w.heap
  | [], _, _, _, _, _ => fun _ _ => rfl
  | op :: ops, w, hw, hn, hp, ho => by
    obtain ⟨h2, h3⟩ := private_step hw hn hp op (ho op (by simp))
    have hn' : n < (attempt w op).models.length :=
      (List.getElem?_eq_some_iff.1 ((persist_step hw op).2 n _ (List.getElem?_eq_getElem hn))).1
    intro u hu
    exact (private_run ops (attempt_wf hw op) hn' h3 (fun o h => ho o (by simp [h])) u hu).trans (h2 u hu)

/-- **C75.** What a model stands for at any later time, for every program after its construction that does not take the attributes of this model: an argument
given as a list or as an array of another type than float counts with the value it had at the construction (also a single break point), an argument given as an
array of floats counts with its present value. -/
theorem C75_live (pre post : List Op) (b c : Arg) (order : Option ℕ) (B C B' C' : Arr) (k p d : ℕ)
    (hb : (run start pre).arg b = some B) (hc : (run start pre).arg c = some C) (hC : C.shape = [k, p, d]) (hk : 0 < k) (ho : ∀ o, order = some o → 0 < o)
    (hb' : (((run start pre).Copied b ∨ B.data.length = 1) ∧ B' = B) ∨
      ∃ i, b = .var i ∧ (run start pre).IsFloat i ∧ B.data.length ≠ 1 ∧ (run start (pre ++ .model b order c :: post)).value i = some B')
    (hc' : ((run start pre).Copied c ∧ C' = C) ∨
      ∃ i, c = .var i ∧ (run start pre).IsFloat i ∧ (run start (pre ++ .model b order c :: post)).value i = some C')
    (hpost : NoAttr (run start pre).models.length post) :
    (run start (pre ++ .model b order c :: post)).seen (run start pre).models.length = some (documented B' order C') := by
  have hw := run_wf start_wf pre
  rw [run_append] at *
  generalize run start pre = w at *
  obtain ⟨w', hw'⟩ := construct_isSome hw hb hc (by rw [hC]; simp) order
  have hat : run w (.model b order c :: post) = run w' post := by simp [run, attempt, step, hw']
  rw [hat] at hb' hc' ⊢
  obtain ⟨m, B0, h1, h2, h3, h4, h4'⟩ := construct_spec hw hw'
  rw [hb] at h1
  obtain rfl := Option.some.inj h1
  have hwf' := h2.wf hw
  have hmn : w'.models[w.models.length]? = some m := by rw [h2.models]; simp
  have hn : w.models.length < w'.models.length := by rw [h2.models]; simp
  have hp : Private w.models.length (fun a => w.heap.length ≤ a ∧ (a = m.breaks.addr ∨ a = m.coeffs.addr)) w' := by
    refine ⟨?_, fun v hv => ?_, fun k' m' hk' hm' => ?_⟩
    · rintro a ⟨-, rfl | rfl⟩
      · exact h2.insideB.1
      · exact h2.insideC.1
    · rw [h2.env] at hv
      have := (hw.env v hv).1
      omega
    · rw [h2.models] at hm'
      have hl : k' < w.models.length := by
        have := (List.getElem?_eq_some_iff.1 hm').1
        simp only [List.length_append, List.length_singleton] at this
        omega
      rw [List.getElem?_append_left hl] at hm'
      have := hw.models m' (List.mem_of_getElem? hm')
      have h5 := this.1.1
      have h6 := this.2.1
      omega
  have hpr := private_run post hwf' hn hp hpost
  obtain ⟨he, hmod⟩ := persist post hwf'
  rw [seen_of (hmod _ _ hmn)]
  obtain ⟨a, rows, s', r1, r2, r3, r4, r5⟩ := h2.readC
  rw [hc] at r1
  obtain rfl := Option.some.inj r1
  rw [hC] at r2
  obtain ⟨rfl, rfl⟩ : k = rows ∧ [p, d] = s' := by simpa using r2
  have hBr : (m.breaks.read (run w' post).heap).data = doubled B'.data := by
    rcases hb' with ⟨hcop, rfl⟩ | ⟨i, rfl, hf, hne, hval⟩
    · rw [hpr _ ⟨h4 hcop, Or.inl rfl⟩]
      exact h2.readB
    · have hv := h4' i rfl hf hne
      have hv' : (run w' post).env[i]? = some m.breaks := he i _ (by rw [h2.env]; exact hv)
      simp only [World.value, hv', Option.map_some, Option.some.injEq] at hval
      have hlen : B'.data.length = B.data.length := by
        have e1 := congrArg (fun a => a.data.length) hval
        rw [read_length ((run_wf hwf' post).models m (List.mem_of_getElem? (hmod _ _ hmn))).1] at e1
        have e2 : B = m.breaks.read w.heap := by
          simp only [World.arg, World.value, hv, Option.map_some, Option.some.injEq] at hb
          exact hb.symm
        rw [← e1, e2, read_length (hw.env _ (List.mem_of_getElem? hv))]
      rw [hval, doubled, if_neg (by rw [hlen]; exact hne)]
  have hCr : C'.shape = [k, p, d] ∧
      m.coeffs.read (run w' post).heap = ⟨effKeep order k :: [p, d], C'.data.drop ((k - effKeep order k) * [p, d].prod)⟩ := by
    rcases hc' with ⟨hcop, rfl⟩ | ⟨i, rfl, hf, hval⟩
    · exact ⟨hC, by rw [hpr _ ⟨h2.copiedC hcop, Or.inr rfl⟩]; exact r4⟩
    · obtain ⟨v, hv, hsh, hm⟩ := r5 i rfl hf
      have hv' : (run w' post).env[i]? = some v := he i _ (by rw [h2.env]; exact hv)
      simp only [World.value, hv', Option.map_some, Option.some.injEq] at hval
      refine ⟨by rw [← hval]; exact hsh, ?_⟩
      rw [hm, read_tail hsh (effKeep_le order k), hval]
  exact congrArg some (denote_tail hCr.1 hk ho hBr r3 hCr.2 B'.shape)

/-- **C75.** A model made from lists or from arrays of another type than float has memory of its own: whatever the program does afterwards, except taking the
attributes of this model, it stands for the documented model of the values the arguments had when it was constructed. -/
theorem C75_private (pre post : List Op) (b c : Arg) (order : Option ℕ) (B C : Arr) (k p d : ℕ)
    (hb : (run start pre).arg b = some B) (hc : (run start pre).arg c = some C) (hC : C.shape = [k, p, d]) (hk : 0 < k) (ho : ∀ o, order = some o → 0 < o)
    (hb' : (run start pre).Copied b ∨ B.data.length = 1) (hc' : (run start pre).Copied c) (hpost : NoAttr (run start pre).models.length post) :
    (run start (pre ++ .model b order c :: post)).seen (run start pre).models.length = some (documented B order C) :=
  C75_live pre post b c order B C B C k p d hb hc hC hk ho (Or.inl ⟨hb', rfl⟩) (Or.inl ⟨hc', rfl⟩) hpost

/-- A program of writes into variables. -/
def writes (l : List (ℕ × ℕ × ℝ)) : List Op := l.map fun t => .write t.1 t.2.1 t.2.2

theorem writes_frame {H : ℕ} : ∀ (l : List (ℕ × ℕ × ℝ)) {w : World}, WF w → (∀ t ∈ l, ∀ v, w.env[t.1]? = some v → H ≤ v.addr) →
    (run w (writes l)).env = w.env ∧ (run w (writes l)).models = w.models ∧ ∀ u : View, u.addr < H → u.read (run w (writes l)).heap = u.read w.heap
  | [], _, _, _ => ⟨rfl, rfl, fun _ _ => rfl⟩
  | t :: l, w, hw, h => by
    have hst : (attempt w (.write t.1 t.2.1 t.2.2)).env = w.env ∧ (attempt w (.write t.1 t.2.1 t.2.2)).models = w.models ∧
        ∀ u : View, u.addr < H → u.read (attempt w (.write t.1 t.2.1 t.2.2)).heap = u.read w.heap := by
      unfold attempt
      cases hs : step w (.write t.1 t.2.1 t.2.2) with
      | none => exact ⟨rfl, rfl, fun _ _ => rfl⟩
      | some w' =>
        rcases step_spec hw hs with ⟨i, j, x, v, hop, hv, hj, rfl⟩ | ⟨hs', es, ms, g⟩
        · injection hop with h1 h2 h3
          subst h1
          refine ⟨rfl, rfl, fun u hu => ?_⟩
          refine read_written_other (hw.env v (List.mem_of_getElem? hv)).1 hj ?_
          rintro ⟨ha, -⟩
          have := h t (by simp) v hv
          omega
        · simp only [step] at hs
          split at hs
          · cases hs
          · rename_i v hv
            split at hs
            · rename_i hj
              rw [Option.some.injEq] at hs
              subst hs
              refine ⟨rfl, rfl, fun u hu => ?_⟩
              refine read_written_other (w := w) (v := v) (j := t.2.1) (x := t.2.2) (hw.env v (List.mem_of_getElem? hv)).1 hj ?_
              rintro ⟨ha, -⟩
              have := h t (by simp) v hv
              omega
            · cases hs
    obtain ⟨a1, a2, a3⟩ := hst
    obtain ⟨b1, b2, b3⟩ := writes_frame l (attempt_wf hw (.write t.1 t.2.1 t.2.2)) (fun t' ht' v hv => h t' (by simp [ht']) v (by rw [← a1]; exact hv))
    exact ⟨b1.trans a1, b2.trans a2, fun u hu => (b3 u hu).trans (a3 u hu)⟩

/-- **C75.** The arrays returned by `to_ppdict` and `synth_coeffs` are new: writing into them in any way changes neither a model nor an older variable. -/
theorem C75_results (pre : List Op) (op : Op) (n : ℕ) (l : List (ℕ × ℕ × ℝ))
    (hop : op = .toPP n ∨ ∃ times dim deriv ex, op = .synth n times dim deriv ex) (hl : ∀ t ∈ l, (run start pre).env.length ≤ t.1) :
    (run start (pre ++ op :: writes l)).models.length = (run start pre).models.length ∧
    (∀ k, (run start (pre ++ op :: writes l)).seen k = (run start pre).seen k) ∧
    (∀ i < (run start pre).env.length, (run start (pre ++ op :: writes l)).value i = (run start pre).value i) := by
  have hw := run_wf start_wf pre
  rw [run_append]
  generalize run start pre = w at *
  have hgrow : ∃ hs es, (attempt w op).heap = w.heap ++ hs ∧ (attempt w op).env = w.env ++ es ∧ (attempt w op).models = w.models ∧
      ∀ e ∈ es, w.heap.length ≤ e.addr := by
    unfold attempt
    cases hst : step w op with
    | none => exact ⟨[], [], by simp, by simp, rfl, fun _ h => nomatch h⟩
    | some w' =>
      rcases hop with rfl | ⟨times, dim, deriv, ex, rfl⟩
      · simp only [step] at hst
        split at hst
        · cases hst
        · split at hst
          · cases hst
          · rename_i b c hp
            obtain ⟨hb, hc⟩ := ppArrays_ok hp
            rw [Option.some.injEq] at hst
            subst hst
            obtain ⟨b1, v1, e1, e2, e3, e4, e5, -⟩ := keep_grow hw hb
            obtain ⟨b2, v2, f1, f2, f3, f4, f5, -⟩ := keep_grow e5 hc
            refine ⟨[b1, b2], [v1, v2], by simp [f1, e1], by simp [f2, e2], by simp [f3, e3], fun e he => ?_⟩
            simp only [List.mem_cons, List.not_mem_nil, or_false] at he
            rcases he with he | he
            · subst he; exact e4.ge
            · subst he; rw [e1] at f4; simp only [List.length_append] at f4; omega
      · simp only [step] at hst
        split at hst
        · cases hst
        · split at hst
          · cases hst
          · rename_i a hp
            rw [Option.some.injEq] at hst
            subst hst
            obtain ⟨b1, v1, e1, e2, e3, e4, e5, -⟩ := keep_grow hw (synthArray_ok hp)
            refine ⟨[b1], [v1], e1, e2, e3, fun e he => ?_⟩
            rw [List.mem_singleton] at he
            subst he
            exact e4.ge
  obtain ⟨hs, es, h1, h2, h3, h4⟩ := hgrow
  have hrun : run w (op :: writes l) = run (attempt w op) (writes l) := rfl
  rw [hrun]
  obtain ⟨c1, c2, c3⟩ := writes_frame (H := w.heap.length) l (attempt_wf hw op) (fun t ht v hv => by
    rw [h2, List.getElem?_append_right (hl t ht)] at hv
    exact h4 v (List.mem_of_getElem? hv))
  have hread : ∀ u : View, u.addr < w.heap.length → u.read (run (attempt w op) (writes l)).heap = u.read w.heap := fun u hu => by
    rw [c3 u hu, h1, read_append hu]
  refine ⟨by rw [c2, h3], fun k => ?_, fun i hi => ?_⟩
  · simp only [World.seen, c2, h3]
    cases hm : w.models[k]? with
    | none => rfl
    | some m =>
      have := hw.models m (List.mem_of_getElem? hm)
      simp only [Option.map_some, Model.denote, hread _ this.1.1, hread _ this.2.1]
  · simp only [World.value, c1, h2, List.getElem?_append_left hi]
    have hm := List.getElem?_eq_getElem hi
    rw [hm]
    simp only [Option.map_some, hread _ (hw.env _ (List.getElem_mem hi)).1]

/-- **C75.** A write into a variable changes this variable at the written position and nowhere else. -/
theorem C75_write (pre : List Op) (i j : ℕ) (x : ℝ) (A : Arr) (hA : (run start pre).value i = some A) (hj : j < A.data.length) :
    (run start (pre ++ [.write i j x])).value i = some (Arr.put A j x) := by
  have hw := run_wf start_wf pre
  rw [run_append]
  generalize run start pre = w at *
  simp only [World.value, Option.map_eq_some_iff] at hA
  obtain ⟨v, hv, rfl⟩ := hA
  have hin := hw.env v (List.mem_of_getElem? hv)
  rw [read_length hin] at hj
  have hst : run w [.write i j x] = written w v j x := by simp [run, attempt, step, hv, hj, written]
  rw [hst]
  have henv : (written w v j x).env[i]? = some v := hv
  simp only [World.value, henv, Option.map_some, read_written_same hin.1 rfl rfl]

theorem construct_env {w w' : World} (hw : WF w) {b c : Arg} {order : Option ℕ} (h : construct w b order c = some w') : w'.env = w.env := by
  obtain ⟨m, B, -, h2, -⟩ := construct_spec hw h
  exact h2.env

theorem model_isFloat (pre : List Op) (b c : Arg) (order : Option ℕ) (i : ℕ) (h : (run start pre).IsFloat i) :
    (run start (pre ++ [.model b order c])).IsFloat i := by
  have hw := run_wf start_wf pre
  rw [run_append]
  generalize run start pre = w at *
  obtain ⟨v, hv, hf⟩ := h
  show (attempt w _).IsFloat i
  unfold attempt
  cases hs : step w (.model b order c) with
  | none => exact ⟨v, hv, hf⟩
  | some w' =>
    obtain ⟨m, B, -, h2, -⟩ := construct_spec hw hs
    obtain ⟨hs', hh⟩ := h2.heap
    exact ⟨v, by rw [Option.getD_some, h2.env]; exact hv, by rw [Option.getD_some, hh, block_append _ _ _ (hw.env v (List.mem_of_getElem? hv)).1]; exact hf⟩

/-- **C75** (finding). An array of floats that was passed as the coefficients of two models: an element written into it afterwards changes both models. -/
theorem C75_alias (pre : List Op) (B1 B2 C : Arr) (o1 o2 : Option ℕ) (ic j : ℕ) (x : ℝ) (k p d : ℕ)
    (hB1 : B1.data.length = B1.shape.prod) (hB2 : B2.data.length = B2.shape.prod)
    (hc : (run start pre).value ic = some C) (hf : (run start pre).IsFloat ic) (hC : C.shape = [k, p, d]) (hk : 0 < k) (hj : j < C.data.length)
    (ho1 : ∀ o, o1 = some o → 0 < o) (ho2 : ∀ o, o2 = some o → 0 < o) :
    (run start (pre ++ [.model (.list B1) o1 (.var ic), .model (.list B2) o2 (.var ic), .write ic j x])).seen (run start pre).models.length =
      some (documented B1 o1 (Arr.put C j x)) ∧
    (run start (pre ++ [.model (.list B1) o1 (.var ic), .model (.list B2) o2 (.var ic), .write ic j x])).seen ((run start pre).models.length + 1) =
      some (documented B2 o2 (Arr.put C j x)) := by
  have a1 : ∀ w : World, w.arg (.list B1) = some B1 := fun w => by simp [World.arg, hB1]
  have a2 : ∀ w : World, w.arg (.list B2) = some B2 := fun w => by simp [World.arg, hB2]
  obtain ⟨l1, -, -, v1⟩ := C75_constructed pre (.list B1) (.var ic) o1 B1 C k p d (a1 _) hc hC hk ho1
  have hf1 := model_isFloat pre (.list B1) (.var ic) o1 ic hf
  have hc1 : (run start (pre ++ [.model (.list B1) o1 (.var ic)])).value ic = some C := by rw [v1, hc]
  obtain ⟨l2, -, -, v2⟩ := C75_constructed _ (.list B2) (.var ic) o2 B2 C k p d (a2 _) hc1 hC hk ho2
  have hc2 : (run start ((pre ++ [.model (.list B1) o1 (.var ic)]) ++ [.model (.list B2) o2 (.var ic)])).value ic = some C := by rw [v2, hc1]
  have hw3 := C75_write _ ic j x C hc2 hj
  have na : ∀ n, NoAttr n [.model (.list B2) o2 (.var ic), .write ic j x] := by
    intro n op hop
    simp only [List.mem_cons, List.not_mem_nil, or_false] at hop
    rcases hop with rfl | rfl <;> simp
  have nb : ∀ n, NoAttr n [.write ic j x] := by
    intro n op hop
    simp only [List.mem_cons, List.not_mem_nil, or_false] at hop
    rcases hop with rfl
    simp
  simp only [List.append_assoc, List.cons_append, List.nil_append] at hw3
  constructor
  · exact C75_live pre [.model (.list B2) o2 (.var ic), .write ic j x] (.list B1) (.var ic) o1 B1 C B1 (Arr.put C j x) k p d (a1 _) hc hC hk ho1
      (Or.inl ⟨Or.inl trivial, rfl⟩) (Or.inr ⟨ic, rfl, hf, hw3⟩) (na _)
  · have := C75_live (pre ++ [Op.model (.list B1) o1 (.var ic)]) [.write ic j x] (.list B2) (.var ic) o2 B2 C B2 (Arr.put C j x) k p d (a2 _) hc1 hC hk ho2
      (Or.inl ⟨Or.inl trivial, rfl⟩) (Or.inr ⟨ic, rfl, hf1, by simpa using hw3⟩) (nb _)
    rw [l1] at this
    simpa using this

/-- **C75.** The two models of `CHAOS(breaks, order, coeffs_tdep, coeffs_static)` for an array of floats `breaks` (two or more) and lists of coefficients: at any
later time the time-dependent model has the present break points of the caller's array, the static model has the first and last break points of the
construction. -/
theorem C75_chaos (pre post : List Op) (ib : ℕ) (order : Option ℕ) (B B' T S : Arr) (n k p d k' p' d' : ℕ)
    (hb : (run start pre).value ib = some B) (hB : B.shape = [n + 2]) (hf : (run start pre).IsFloat ib)
    (hT : T.data.length = T.shape.prod) (hT' : T.shape = [k, p, d]) (hS : S.data.length = S.shape.prod) (hS' : S.shape = [k', p', d'])
    (hk : 0 < k) (hk' : 0 < k') (ho : ∀ o, order = some o → 0 < o)
    (hpost : NoAttr (run start pre).models.length post) (hpost' : NoAttr ((run start pre).models.length + 1) post)
    (hnow : (run start (pre ++ .chaos ib order (.list T) (.list S) :: post)).value ib = some B') :
    (run start (pre ++ .chaos ib order (.list T) (.list S) :: post)).seen (run start pre).models.length = some (documented B' order T) ∧
    (run start (pre ++ .chaos ib order (.list T) (.list S) :: post)).seen ((run start pre).models.length + 1) =
      some (documented ⟨[2], [B.data.getD 0 0, B.data.getD (n + 1) 0]⟩ (some 1) S) := by
  have hw := run_wf start_wf pre
  rw [run_append] at *
  generalize run start pre = w at *
  have hTa : w.arg (.list T) = some T := by simp [World.arg, hT]
  obtain ⟨w1, hw1⟩ := construct_isSome hw (b := .var ib) (c := .list T) hb hTa (by rw [hT']; simp) order
  obtain ⟨v, hv, hfl⟩ := hf
  have hvB : v.read w.heap = B := by simpa [World.value, hv] using hb
  have hvs : v.shape = [n + 2] := by rw [← hB, ← hvB]; rfl
  have hch : ∃ w2, chaos w ib order (.list T) (.list S) = some w2 := by
    rw [← Option.isSome_iff_exists]
    simp only [chaos, hw1, hv, endsOf, hvs, build, asarray, hS, if_true, initCoeffs]
    simp only [alloc, hS', Option.isSome_some]
  obtain ⟨w2, hw2⟩ := hch
  have hat : run w (.chaos ib order (.list T) (.list S) :: post) = run w2 post := by simp [run, attempt, step, hw2]
  rw [hat] at hnow ⊢
  obtain ⟨w1', m1, m2, B0, n0, e1, e2, e3, e4, e5, e6, e7, e8⟩ := chaos_spec hw hw2
  rw [hb] at e1
  obtain rfl := Option.some.inj e1
  rw [hB] at e2
  obtain rfl : n + 1 = n0 := by simpa using e2
  have hBlen : B.data.length = n + 2 := by
    rw [← hvB, read_length (hw.env v (List.mem_of_getElem? hv)), View.size, hvs]
    simp
  have hwf1 := e4.wf hw
  have hwf2 := e7.wf hwf1
  obtain ⟨hs1, hh1⟩ := e4.heap
  obtain ⟨hs2, hh2⟩ := e7.heap
  have hl1 : w1'.models.length = w.models.length + 1 := by rw [e4.models]; simp
  have hm1 : w2.models[w.models.length]? = some m1 := by
    rw [e7.models]; exact getElem?_append_some (by rw [e4.models]; simp)
  have hm2 : w2.models[w.models.length + 1]? = some m2 := by
    rw [e7.models, ← hl1]; simp
  have hn2 : w2.models.length = w.models.length + 2 := by rw [e7.models, List.length_append, hl1]; rfl
  have hold : ∀ m ∈ w.models, m.breaks.addr < w.heap.length ∧ m.coeffs.addr < w.heap.length :=
    fun m hm => ⟨(hw.models m hm).1.1, (hw.models m hm).2.1⟩
  have hlen1 : w.heap.length ≤ w1'.heap.length := by rw [hh1]; simp
  have hm1b : w.env[ib]? = some m1.breaks := e6 ib rfl ⟨v, hv, hfl⟩ (by omega)
  have hm1b' : m1.breaks.addr < w.heap.length := (hw.env _ (List.mem_of_getElem? hm1b)).1
  have hm1c : w.heap.length ≤ m1.coeffs.addr := e4.copiedC trivial
  have hm2c : w1'.heap.length ≤ m2.coeffs.addr := e7.copiedC trivial
  have hm1c' : m1.coeffs.addr < w1'.heap.length := e4.insideC.1
  have henv2 : w2.env = w.env := by rw [e7.env, e4.env]
  have hcases : ∀ (kk : ℕ) m, w2.models[kk]? = some m → (m ∈ w.models) ∨ (kk = w.models.length ∧ m = m1) ∨ (kk = w.models.length + 1 ∧ m = m2) := by
    intro kk m hkm
    have hlt := (List.getElem?_eq_some_iff.1 hkm).1
    rw [hn2] at hlt
    by_cases c1 : kk = w.models.length
    · subst c1
      rw [hm1] at hkm
      exact Or.inr (Or.inl ⟨rfl, (Option.some.inj hkm).symm⟩)
    · by_cases c2 : kk = w.models.length + 1
      · subst c2
        rw [hm2] at hkm
        exact Or.inr (Or.inr ⟨rfl, (Option.some.inj hkm).symm⟩)
      · left
        have : kk < w.models.length := by omega
        rw [e7.models, e4.models, List.append_assoc, List.getElem?_append_left this] at hkm
        exact List.mem_of_getElem? hkm
  have hp1 : Private w.models.length (fun a => a = m1.coeffs.addr) w2 := by
    refine ⟨?_, fun u hu => ?_, fun kk m hk hm => ?_⟩
    · rintro a rfl
      rw [hh2, List.length_append]; omega
    · rw [henv2] at hu
      have := (hw.env u hu).1
      omega
    · rcases hcases kk m hm with h | ⟨h, -⟩ | ⟨-, rfl⟩
      · have := hold m h
        omega
      · exact absurd h hk
      · omega
  have hp2 : Private (w.models.length + 1) (fun a => a = m2.breaks.addr ∨ a = m2.coeffs.addr) w2 := by
    refine ⟨?_, fun u hu => ?_, fun kk m hk hm => ?_⟩
    · rintro a (rfl | rfl)
      · exact e7.insideB.1
      · exact e7.insideC.1
    · rw [henv2] at hu
      have := (hw.env u hu).1
      omega
    · rcases hcases kk m hm with h | ⟨-, rfl⟩ | ⟨h, -⟩
      · have := hold m h
        omega
      · omega
      · exact absurd h hk
  have hr1 := private_run post hwf2 (by omega) hp1 hpost
  have hr2 := private_run post hwf2 (by omega) hp2 hpost'
  obtain ⟨he, hmod⟩ := persist post hwf2
  constructor
  · rw [seen_of (hmod _ _ hm1)]
    have hv' : (run w2 post).env[ib]? = some m1.breaks := he ib _ (by rw [henv2]; exact hm1b)
    simp only [World.value, hv', Option.map_some, Option.some.injEq] at hnow
    obtain ⟨a, rows, s', r1, r2, r3, r4, -⟩ := e4.readC
    rw [hTa] at r1
    obtain rfl := Option.some.inj r1
    rw [hT'] at r2
    obtain ⟨rfl, rfl⟩ : k = rows ∧ [p, d] = s' := by simpa using r2
    have hlen : B'.data.length = n + 2 := by
      have : m1.breaks = v := by rw [hv] at hm1b; exact (Option.some.inj hm1b).symm
      rw [← hnow, read_length ((run_wf hwf2 post).models m1 (List.mem_of_getElem? (hmod _ _ hm1))).1, this, View.size, hvs]
      simp
    refine congrArg some (denote_tail hT' hk ho ?_ r3 ?_ B'.shape)
    · rw [hnow, doubled, if_neg (by omega)]
    · rw [hr1 _ rfl, hh2, read_append hm1c', r4]
  · rw [seen_of (hmod _ _ hm2)]
    obtain ⟨a, rows, s', r1, r2, r3, r4, -⟩ := e7.readC
    have hSa : w1'.arg (.list S) = some S := by simp [World.arg, hS]
    rw [hSa] at r1
    obtain rfl := Option.some.inj r1
    rw [hS'] at r2
    obtain ⟨rfl, rfl⟩ : k' = rows ∧ [p', d'] = s' := by simpa using r2
    refine congrArg some (denote_tail hS' hk' (by simp) ?_ r3 ?_ _)
    · rw [hr2 _ (Or.inl rfl)]
      exact e7.readB
    · rw [hr2 _ (Or.inr rfl), r4]

/-- **C75.** `synth_coeffs` returns a new array with the coefficients of the present model: row `t` has the coefficients at the time `t` (for rows that are
not NaN); an exception changes nothing. -/
theorem C75_synth (pre : List Op) (n : ℕ) (b : Base) (times : List ℝ) (dim deriv : Option ℕ) (ex : Option Extrap) (hb : (run start pre).seen n = some b) :
    (∀ d rows, b.synthCoeffs times dim deriv ex = .ok (d, rows) →
      (run start (pre ++ [.synth n times dim deriv ex])).env.length = (run start pre).env.length + 1 ∧
      ∃ a, (run start (pre ++ [.synth n times dim deriv ex])).value (run start pre).env.length = some a ∧ a.shape = [times.length, d] ∧
        ∀ (t l : ℕ) f, rows[t]? = some (some f) → l < d → a.data[t * d + l]? = some (f l)) ∧
    (∀ e, b.synthCoeffs times dim deriv ex = .error e → run start (pre ++ [.synth n times dim deriv ex]) = run start pre) := by
  have hw := run_wf start_wf pre
  rw [run_append]
  generalize run start pre = w at *
  simp only [World.seen, Option.map_eq_some_iff] at hb
  obtain ⟨m, hm, rfl⟩ := hb
  refine ⟨fun d rows h => ?_, fun e h => ?_⟩
  · have hrun : run w [.synth n times dim deriv ex] =
        keep w ⟨[times.length, d], rows.flatMap fun r => (List.range d).map fun l => (r.map fun f => f l).getD 0⟩ := by
      simp only [run, List.foldl_cons, List.foldl_nil, attempt, step, hm, synthArray, h, Option.getD_some]
    have hok : (Arr.mk [times.length, d] (rows.flatMap fun r => (List.range d).map fun l => (r.map fun f => f l).getD 0)).data.length = [times.length, d].prod := by
      simp [List.length_flatMap, synthCoeffs_rows h]
    obtain ⟨b1, v1, e1, e2, e3, e4, e5, e6⟩ := keep_grow hw hok
    rw [hrun]
    refine ⟨by rw [e2]; simp, ⟨[times.length, d], rows.flatMap fun r => (List.range d).map fun l => (r.map fun f => f l).getD 0⟩, ?_, rfl, fun t l f ht hl => ?_⟩
    · simp only [World.value, e2, List.getElem?_append_right le_rfl, Nat.sub_self, List.getElem?_cons_zero, Option.map_some]
      rw [e6]
    · simp only
      rw [PPoly.flatMap_get d _ rows (by simp) t l (some f) ht hl]
      simp [List.getElem?_range, hl]
  · simp only [run, List.foldl_cons, List.foldl_nil, attempt, step, hm, synthArray, h, Option.getD_none]

/-- **C75.** `to_ppdict` of a model whose coefficients have the shape `(order, p, d)` returns new arrays with the break points as a row and the matrix
whose entry `(j d + l, i)` is the coefficient `(i, j, l)` of the present model. -/
theorem C75_ppdict (pre : List Op) (n : ℕ) (m : Model) (b : Base) (c : ℕ → ℕ → ℕ → ℝ) (p d : ℕ) (hm : (run start pre).models[n]? = some m)
    (hs : m.coeffs.shape = [m.order, p, d]) (ho : 0 < m.order) (hb : (run start pre).seen n = some b) (hc : b.coeffs = some c) :
    (run start (pre ++ [.toPP n])).env.length = (run start pre).env.length + 2 ∧
    (run start (pre ++ [.toPP n])).value (run start pre).env.length = some ⟨[1, b.breaks.length], b.breaks⟩ ∧
    ∃ a, (run start (pre ++ [.toPP n])).value ((run start pre).env.length + 1) = some a ∧ a.shape = [p * d, b.order] ∧
      ∀ i < b.order, ∀ j < p, ∀ l < d, a.data.getD ((j * d + l) * b.order + i) 0 = c i j l := by
  have hw := run_wf start_wf pre
  rw [run_append]
  generalize run start pre = w at *
  simp only [World.seen, hm, Option.map_some, Option.some.injEq] at hb
  subst hb
  simp only [Model.denote, Option.some.injEq] at hc ⊢
  subst hc
  have hlen : (m.coeffs.read w.heap).data.length = m.order * (p * d) := by
    rw [read_length (hw.models m (List.mem_of_getElem? hm)).2, View.size, hs]
    simp
  have hpp : ppArrays w.heap m = some (⟨[1, (m.breaks.read w.heap).data.length], (m.breaks.read w.heap).data⟩, ⟨[p * d, m.order],
      (List.range (p * d)).flatMap fun j => (List.range m.order).map fun i => (m.coeffs.read w.heap).data.getD (i * (p * d) + j) 0⟩) := by
    simp only [ppArrays, hlen, Nat.mul_mod_right, ne_eq, not_true_eq_false, or_false, ho.ne', if_false, Nat.mul_div_cancel_left _ ho]
  obtain ⟨hbo, hco⟩ := ppArrays_ok hpp
  obtain ⟨b1, v1, e1, e2, e3, e4, e5, e6⟩ := keep_grow hw hbo
  obtain ⟨b2, v2, f1, f2, f3, f4, f5, f6⟩ := keep_grow e5 hco
  have hrun : run w [.toPP n] = keep (keep w ⟨[1, (m.breaks.read w.heap).data.length], (m.breaks.read w.heap).data⟩) ⟨[p * d, m.order],
      (List.range (p * d)).flatMap fun j => (List.range m.order).map fun i => (m.coeffs.read w.heap).data.getD (i * (p * d) + j) 0⟩ := by
    simp only [run, List.foldl_cons, List.foldl_nil, attempt, step, hm, hpp, Option.getD_some]
  rw [hrun]
  refine ⟨by rw [f2, e2]; simp, ?_, ⟨[p * d, m.order],
    (List.range (p * d)).flatMap fun j => (List.range m.order).map fun i => (m.coeffs.read w.heap).data.getD (i * (p * d) + j) 0⟩, ?_, rfl,
    fun i hi j hj l hl => ?_⟩
  · simp only [World.value, f2, e2, List.append_assoc, List.cons_append, List.nil_append, List.getElem?_append_right le_rfl, Nat.sub_self,
      List.getElem?_cons_zero, Option.map_some]
    rw [f1, read_append (by rw [e1, e4]; simp), e6]
  · have h1 : (w.env ++ [v1] ++ [v2])[w.env.length + 1]? = some v2 := by
      rw [List.getElem?_append_right (by simp)]
      simp
    simp only [World.value, f2, e2, h1, Option.map_some]
    rw [f6]
  · have hjl : j * d + l < p * d := by
      have : (j + 1) * d ≤ p * d := Nat.mul_le_mul_right d hj
      rw [Nat.add_mul] at this
      omega
    simp only
    rw [Matfile.grid_get m.order (p * d) (fun j i => (m.coeffs.read w.heap).data.getD (i * (p * d) + j) 0) hjl hi]
    have hsh : (m.coeffs.read w.heap).shape = [m.order, p, d] := hs
    simp only [cube, hsh, List.getD_cons_zero, List.getD_cons_succ, List.getLastD_cons, List.getLastD_nil]
    congr 1
    ring

/-! ### Concrete cases -/

/-- An array of integers for the break points, an array of floats for the coefficients (one constant piece, three coefficients). -/
def demo : List Op := [.array false ⟨[2], [0, 10]⟩, .array true ⟨[1, 1, 3], [1, 2, 3]⟩]

theorem demo_world : run start demo = ⟨[⟨false, [0, 10]⟩, ⟨true, [1, 2, 3]⟩], [⟨0, 0, [2]⟩, ⟨1, 0, [1, 1, 3]⟩], []⟩ := by
  simp [run, demo, attempt, step, start, alloc]

/-- A break point of the integer array and a coefficient of the float array are overwritten: only the latter counts. -/
example : (run start (demo ++ .model (.var 0) none (.var 1) :: [.write 0 1 20, .write 1 0 5])).seen 0 =
    some (documented ⟨[2], [0, 10]⟩ none ⟨[1, 1, 3], [5, 2, 3]⟩) := by
  have h := C75_live demo [.write 0 1 20, .write 1 0 5] (.var 0) (.var 1) none ⟨[2], [0, 10]⟩ ⟨[1, 1, 3], [1, 2, 3]⟩ ⟨[2], [0, 10]⟩ ⟨[1, 1, 3], [5, 2, 3]⟩ 1 1 3
    (by simp [demo_world, World.arg, World.value, View.read, View.size, block])
    (by simp [demo_world, World.arg, World.value, View.read, View.size, block]) rfl (by omega) (by simp)
    (Or.inl ⟨Or.inl ⟨⟨0, 0, [2]⟩, by simp [demo_world], by simp [demo_world, block]⟩, rfl⟩)
    (Or.inr ⟨1, rfl, ⟨⟨1, 0, [1, 1, 3]⟩, by simp [demo_world], by simp [demo_world, block]⟩, by
      rw [run_append, demo_world]
      simp [run, attempt, step, construct, build, asarray, asFloat, alloc, initBreaks, initCoeffs, World.value, View.read, View.size, block]⟩)
    (by intro op hop; simp only [List.mem_cons, List.not_mem_nil, or_false] at hop; rcases hop with rfl | rfl <;> simp)
  rwa [demo_world] at h

/-- The evaluation after the write is another one: the first coefficient was 1 and is 5. -/
example : (documented ⟨[2], [0, 10]⟩ none ⟨[1, 1, 3], [1, 2, 3]⟩).coeffs ≠ (documented ⟨[2], [0, 10]⟩ none ⟨[1, 1, 3], [5, 2, 3]⟩).coeffs := by
  intro h
  have := congrArg (fun f => (f.getD fun _ _ _ => 0) 0 0 0) h
  simp [documented, Base.init, cube] at this

/-- The hypothesis of `C75_frame` for a program that writes into a pp-dictionary and into the integer array. -/
theorem ex_quiet : Quiet 0 (run start (demo ++ [.model (.var 0) none (.list ⟨[1, 1, 3], [1, 2, 3]⟩)])) [.toPP 0, .write 3 0 7, .write 0 0 7, .write 1 0 7] := by
  rw [run_append, demo_world]
  simp [Quiet, run, attempt, step, construct, build, asarray, asFloat, alloc, initBreaks, initCoeffs, View.read, View.size, block, World.Touches, Shares,
    ppArrays, keep]

end ChaosMagPy.ModelHeap
