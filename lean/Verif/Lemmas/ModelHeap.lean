import Verif.Spec.ModelHeap
import Mathlib.Tactic.Linarith
/-! Lemmas about memory, views and the operations of `Model/ModelHeap.lean`. -/
namespace ChaosMagPy.ModelHeap
open ChaosMagPy.Matfile (Arr)
open ChaosMagPy.PPoly (Base Extrap)

/-- The array lies within its block. -/
def Inside (heap : List Block) (v : View) : Prop := v.addr < heap.length ∧ v.off + v.size ≤ (block heap v.addr).data.length

/-- All arrays the program can see lie within their blocks. -/
structure WF (w : World) : Prop where
  env : ∀ v ∈ w.env, Inside w.heap v
  models : ∀ m ∈ w.models, Inside w.heap m.breaks ∧ Inside w.heap m.coeffs

theorem block_append (heap hs : List Block) (a : ℕ) (h : a < heap.length) : block (heap ++ hs) a = block heap a := by
  simp only [block, List.getD_eq_getElem?_getD, List.getElem?_append_left h]

theorem block_last (heap : List Block) (b : Block) : block (heap ++ [b]) heap.length = b := by
  simp [block, List.getD_eq_getElem?_getD]

theorem Inside.append {heap : List Block} {v : View} (h : Inside heap v) (hs : List Block) : Inside (heap ++ hs) v := by
  refine ⟨?_, ?_⟩
  · have := h.1
    simp only [List.length_append]
    omega
  · rw [block_append _ _ _ h.1]
    exact h.2

theorem read_append {heap : List Block} {v : View} (h : v.addr < heap.length) (hs : List Block) : v.read (heap ++ hs) = v.read heap := by
  simp only [View.read, block_append _ _ _ h]

theorem read_length {heap : List Block} {v : View} (h : Inside heap v) : (v.read heap).data.length = v.size := by
  have := h.2
  simp only [View.read, List.length_take, List.length_drop]
  omega

theorem WF.append {w : World} (h : WF w) (hs : List Block) : WF { w with heap := w.heap ++ hs } :=
  ⟨fun v hv => (h.env v hv).append hs, fun m hm => ⟨(h.models m hm).1.append hs, (h.models m hm).2.append hs⟩⟩

theorem alloc_spec (heap : List Block) (f : Bool) (a : Arr) (ha : a.data.length = a.shape.prod) :
    (alloc heap f a).1 = heap ++ [⟨f, a.data⟩] ∧ (alloc heap f a).2.addr = heap.length ∧ Inside (alloc heap f a).1 (alloc heap f a).2 ∧
    (alloc heap f a).2.read (alloc heap f a).1 = a := by
  refine ⟨rfl, rfl, ⟨?_, ?_⟩, ?_⟩
  · simp [alloc]
  · simp only [alloc, block_last, View.size, ha]
    omega
  · simp only [alloc, View.read, block_last, View.size, List.drop_zero, ← ha, List.take_length]

/-- Where an array comes from: it is new, or has the memory of a variable. -/
def From (w : World) (v : View) : Prop := w.heap.length ≤ v.addr ∨ ∃ u ∈ w.env, u.addr = v.addr

theorem asFloat_spec (heap : List Block) (v : View) (h : Inside heap v) :
    ∃ hs, (asFloat heap v).1 = heap ++ hs ∧ ((asFloat heap v).2 = v ∨ heap.length ≤ (asFloat heap v).2.addr) ∧
      Inside (asFloat heap v).1 (asFloat heap v).2 ∧ (asFloat heap v).2.read (asFloat heap v).1 = v.read heap := by
  unfold asFloat
  split
  · exact ⟨[], by simp, Or.inl rfl, by simpa using h, rfl⟩
  · have := alloc_spec heap true (v.read heap) (read_length h)
    exact ⟨_, this.1, Or.inr this.2.1.ge, this.2.2.1, this.2.2.2⟩

theorem asarray_spec {w : World} (hw : WF w) {hs0 : List Block} {x : Arg} {heap' : List Block} {v : View}
    (h : asarray w (w.heap ++ hs0) x = some (heap', v)) :
    ∃ hs a, heap' = w.heap ++ hs0 ++ hs ∧ From w v ∧ Inside heap' v ∧ w.arg x = some a ∧ v.read heap' = a ∧
      (w.Copied x → (w.heap ++ hs0).length ≤ v.addr) ∧ (∀ i, x = .var i → w.IsFloat i → w.env[i]? = some v) := by
  cases x with
  | list a =>
    simp only [asarray] at h
    split at h
    · rename_i ha
      have hs := alloc_spec (w.heap ++ hs0) true a ha
      rw [Option.some.injEq, Prod.mk.injEq] at h
      obtain ⟨h1, h2⟩ := h
      rw [← h1, ← h2]
      refine ⟨_, a, hs.1, Or.inl ?_, hs.2.2.1, ?_, hs.2.2.2, fun _ => hs.2.1.ge, fun i hi => nomatch hi⟩
      · rw [hs.2.1]; simp
      · simp [World.arg, ha]
    · cases h
  | var i =>
    simp only [asarray, Option.map_eq_some_iff] at h
    obtain ⟨u, hu, hr⟩ := h
    have hmem : u ∈ w.env := List.mem_of_getElem? hu
    have hin := (hw.env u hmem).append hs0
    obtain ⟨hs, h1, h2, h3, h4⟩ := asFloat_spec _ u hin
    rw [hr] at h1 h2 h3 h4
    simp only at h1 h2 h3 h4
    refine ⟨hs, u.read w.heap, h1, ?_, h3, ?_, ?_, ?_, ?_⟩
    · rcases h2 with h2 | h2
      · exact Or.inr ⟨u, hmem, by rw [h2]⟩
      · left; simp only [List.length_append] at h2; omega
    · simp [World.arg, World.value, hu]
    · rw [h4, read_append (hw.env u hmem).1]
    · rintro ⟨u', hu', hf⟩
      rw [hu] at hu'
      obtain rfl := Option.some.inj hu'
      have : asFloat (w.heap ++ hs0) u = alloc (w.heap ++ hs0) true (u.read (w.heap ++ hs0)) := by
        simp [asFloat, block_append _ _ _ (hw.env u hmem).1, hf]
      rw [hr] at this
      have h5 := congrArg (fun p => p.2.addr) this
      simp only [alloc] at h5
      omega
    · rintro k hk ⟨u', hu', hf⟩
      obtain rfl : i = k := by injection hk
      rw [hu] at hu'
      obtain rfl := Option.some.inj hu'
      have : asFloat (w.heap ++ hs0) u = (w.heap ++ hs0, u) := by
        simp [asFloat, block_append _ _ _ (hw.env u hmem).1, hf]
      rw [hr] at this
      rw [hu, (Prod.mk.inj this).2]

/-- Break points of a model for given ones. -/
def doubled (l : List ℝ) : List ℝ := if l.length = 1 then l ++ l else l

theorem initBreaks_spec (heap : List Block) (v : View) (h : Inside heap v) :
    ∃ hs, (initBreaks heap v).1 = heap ++ hs ∧ ((initBreaks heap v).2 = v ∨ heap.length ≤ (initBreaks heap v).2.addr) ∧
      Inside (initBreaks heap v).1 (initBreaks heap v).2 ∧
      ((initBreaks heap v).2.read (initBreaks heap v).1).data = doubled (v.read heap).data ∧
      (v.size ≠ 1 → initBreaks heap v = (heap, v)) ∧ (v.size = 1 → heap.length ≤ (initBreaks heap v).2.addr) := by
  have hl := read_length h
  unfold initBreaks doubled
  split
  · rename_i hs
    have ha : ((v.read heap).data ++ (v.read heap).data).length = [2].prod := by
      simp [hl, hs]
    have := alloc_spec heap true ⟨[2], (v.read heap).data ++ (v.read heap).data⟩ ha
    refine ⟨_, this.1, Or.inr this.2.1.ge, this.2.2.1, ?_, fun hne => absurd hs hne, fun _ => this.2.1.ge⟩
    rw [this.2.2.2, if_pos (by rw [hl, hs])]
  · rename_i hs
    refine ⟨[], by simp, Or.inl rfl, by simpa using h, ?_, fun _ => rfl, fun hne => absurd hne hs⟩
    rw [if_neg (by rw [hl]; exact hs)]

/-- Number of rows kept. -/
def effOrder (order : Option ℕ) (rows : ℕ) : ℕ := match order with
  | none => rows
  | some o => min o rows

/-- Number of rows of the stored array. -/
def effKeep (order : Option ℕ) (rows : ℕ) : ℕ := if effOrder order rows = 0 then rows else effOrder order rows

theorem effKeep_le (order : Option ℕ) (rows : ℕ) : effKeep order rows ≤ rows := by
  unfold effKeep effOrder
  cases order with
  | none => simp
  | some o =>
    simp only
    split
    · exact le_rfl
    · exact min_le_right _ _

theorem initCoeffs_spec {order : Option ℕ} {v : View} {o : ℕ} {c : View} (h : initCoeffs order v = some (o, c)) :
    ∃ rows s, v.shape = rows :: s ∧ o = effOrder order rows ∧
      c = { v with off := v.off + (rows - effKeep order rows) * s.prod, shape := effKeep order rows :: s } := by
  unfold initCoeffs at h
  split at h
  · cases h
  · rename_i rows s hs
    refine ⟨rows, s, hs, ?_⟩
    rw [Option.some.injEq, Prod.mk.injEq] at h
    exact ⟨h.1.symm, h.2.symm⟩

theorem tail_size {v : View} {rows : ℕ} {s : List ℕ} (hv : v.shape = rows :: s) {k : ℕ} (hk : k ≤ rows) :
    (rows - k) * s.prod + k * s.prod = v.size := by
  rw [View.size, hv, List.prod_cons, ← Nat.add_mul, Nat.sub_add_cancel hk]

theorem inside_tail {heap : List Block} {v : View} (h : Inside heap v) {rows : ℕ} {s : List ℕ} (hv : v.shape = rows :: s) {k : ℕ} (hk : k ≤ rows) :
    Inside heap { v with off := v.off + (rows - k) * s.prod, shape := k :: s } := by
  have := tail_size hv hk
  have := h.2
  refine ⟨h.1, ?_⟩
  simp only [View.size, List.prod_cons] at *
  omega

theorem read_tail {heap : List Block} {v : View} {rows : ℕ} {s : List ℕ} (hv : v.shape = rows :: s) {k : ℕ} (hk : k ≤ rows) :
    (View.read heap { v with off := v.off + (rows - k) * s.prod, shape := k :: s }) = ⟨k :: s, (v.read heap).data.drop ((rows - k) * s.prod)⟩ := by
  have := tail_size hv hk
  simp only [View.read, View.size, List.prod_cons, Arr.mk.injEq, true_and] at *
  rw [List.drop_take, List.drop_drop]
  congr 1
  omega

/-- What a successful construction does. -/
structure Built (w : World) (bdata : List ℝ) (order : Option ℕ) (coeffs : Arg) (w' : World) (m : Model) : Prop where
  heap : ∃ hs, w'.heap = w.heap ++ hs
  env : w'.env = w.env
  models : w'.models = w.models ++ [m]
  insideB : Inside w'.heap m.breaks
  insideC : Inside w'.heap m.coeffs
  readB : (m.breaks.read w'.heap).data = doubled bdata
  fromC : From w m.coeffs
  readC : ∃ a rows s, w.arg coeffs = some a ∧ a.shape = rows :: s ∧ m.order = effOrder order rows ∧
    m.coeffs.read w'.heap = ⟨effKeep order rows :: s, a.data.drop ((rows - effKeep order rows) * s.prod)⟩ ∧
    (∀ i, coeffs = .var i → w.IsFloat i → ∃ v, w.env[i]? = some v ∧ v.shape = rows :: s ∧
      m.coeffs = { v with off := v.off + (rows - effKeep order rows) * s.prod, shape := effKeep order rows :: s })
  copiedC : w.Copied coeffs → w.heap.length ≤ m.coeffs.addr

theorem build_spec {w w' : World} (hw : WF w) {hs0 : List Block} {b : View} (hb : Inside (w.heap ++ hs0) b) {order : Option ℕ} {coeffs : Arg}
    (h : build w (w.heap ++ hs0) b order coeffs = some w') :
    ∃ m, Built w (b.read (w.heap ++ hs0)).data order coeffs w' m ∧ (m.breaks = b ∨ w.heap.length ≤ m.breaks.addr) ∧
      (b.size ≠ 1 → m.breaks = b) ∧ (b.size = 1 → w.heap.length ≤ m.breaks.addr) := by
  obtain ⟨hs1, e1, e2, e3, e4, e5, e6⟩ := initBreaks_spec _ b hb
  unfold build at h
  rw [e1, List.append_assoc] at h
  split at h
  · cases h
  · rename_i heap' c hc
    obtain ⟨hs2, a, f1, f2, f3, f4, f5, f6, f7⟩ := asarray_spec hw hc
    split at h
    · cases h
    · rename_i o c' hc'
      obtain ⟨rows, s, g1, g2, g3⟩ := initCoeffs_spec hc'
      rw [Option.some.injEq] at h
      subst h
      have hk := effKeep_le order rows
      have hshape : a.shape = rows :: s := by rw [← f5]; exact g1
      refine ⟨_, ⟨⟨hs0 ++ hs1 ++ hs2, ?_⟩, rfl, rfl, ?_, ?_, ?_, ?_, ⟨a, rows, s, f4, hshape, g2, ?_, ?_⟩, ?_⟩, ?_, ?_, ?_⟩
      · simp only [f1, List.append_assoc]
      · have := e3.append hs2
        rw [e1] at this
        simpa [f1, List.append_assoc] using this
      · simp only [g3]; exact inside_tail f3 g1 hk
      · have h1 := read_append e3.1 hs2
        rw [e1] at h1
        simp only [f1]
        rw [show w.heap ++ (hs0 ++ hs1) ++ hs2 = w.heap ++ hs0 ++ hs1 ++ hs2 from by simp, h1, ← e1, e4]
      · simp only [g3]; exact f2
      · simp only [g3]
        rw [read_tail g1 hk, f5]
      · intro i hi hf
        exact ⟨c, f7 i hi hf, g1, g3⟩
      · intro hcop
        have := f6 hcop
        simp only [g3, List.length_append] at this ⊢
        omega
      · rcases e2 with e2 | e2
        · exact Or.inl e2
        · right; simp only [List.length_append] at e2 ⊢; omega
      · intro hne
        rw [e5 hne]
      · intro h1
        have := e6 h1
        simp only [List.length_append] at this
        show w.heap.length ≤ (initBreaks (w.heap ++ hs0) b).2.addr
        omega

/-- `Base.__init__`. -/
theorem construct_spec {w w' : World} (hw : WF w) {breaks : Arg} {order : Option ℕ} {coeffs : Arg} (h : construct w breaks order coeffs = some w') :
    ∃ m B, w.arg breaks = some B ∧ Built w B.data order coeffs w' m ∧ From w m.breaks ∧
      (w.Copied breaks ∨ B.data.length = 1 → w.heap.length ≤ m.breaks.addr) ∧
      (∀ i, breaks = .var i → w.IsFloat i → B.data.length ≠ 1 → w.env[i]? = some m.breaks) := by
  unfold construct at h
  split at h
  · cases h
  · rename_i heap b hb
    have hb' : asarray w (w.heap ++ []) breaks = some (heap, b) := by simpa using hb
    obtain ⟨hs, a, f1, f2, f3, f4, f5, f6, f7⟩ := asarray_spec hw hb'
    rw [List.append_nil] at f1
    rw [f1] at f3 h f5
    obtain ⟨m, g1, g2, g3, g4⟩ := build_spec hw f3 h
    rw [f5] at g1
    have hlen : a.data.length = b.size := by rw [← f5]; exact read_length f3
    refine ⟨m, a, f4, g1, ?_, ?_, ?_⟩
    · rcases g2 with g2 | g2
      · rw [g2]; exact f2
      · exact Or.inl g2
    · rintro (hc | h1)
      · rcases g2 with g2 | g2
        · rw [g2]; have := f6 hc; simp at this; exact this
        · exact g2
      · exact g4 (hlen ▸ h1)
    · intro i hi hf hne
      rw [g3 (by rw [← hlen]; exact hne)]
      exact f7 i hi hf

theorem Built.wf {w w' : World} (hw : WF w) {B : List ℝ} {o : Option ℕ} {c : Arg} {m : Model} (h : Built w B o c w' m) : WF w' := by
  obtain ⟨hs, hh⟩ := h.heap
  refine ⟨fun v hv => ?_, fun m' hm' => ?_⟩
  · rw [h.env] at hv
    rw [hh]
    exact (hw.env v hv).append hs
  · rw [h.models, List.mem_append] at hm'
    rcases hm' with hm' | hm'
    · rw [hh]
      exact ⟨(hw.models m' hm').1.append hs, (hw.models m' hm').2.append hs⟩
    · rw [List.mem_singleton] at hm'
      subst hm'
      exact ⟨h.insideB, h.insideC⟩

theorem endsOf_spec {w : World} {v : View} {heap : List Block} {e : View} (h : endsOf w v = some (heap, e)) :
    ∃ n b, v.shape = [n + 1] ∧ heap = w.heap ++ [b] ∧ w.heap.length ≤ e.addr ∧ Inside heap e ∧
      (e.read heap).data = [(v.read w.heap).data.getD 0 0, (v.read w.heap).data.getD n 0] := by
  unfold endsOf at h
  split at h
  · cases h
  · rename_i n hn
    rw [Option.some.injEq] at h
    have := alloc_spec w.heap (block w.heap v.addr).isFloat ⟨[2], [(v.read w.heap).data.getD 0 0, (v.read w.heap).data.getD n 0]⟩ (by simp)
    rw [h] at this
    exact ⟨n, _, hn, this.1, this.2.1.ge, this.2.2.1, by rw [this.2.2.2]⟩
  · cases h

/-- The internal part of `CHAOS.__init__`. -/
theorem chaos_spec {w w' : World} (hw : WF w) {breaks : ℕ} {order : Option ℕ} {tdep static : Arg} (h : chaos w breaks order tdep static = some w') :
    ∃ w1 m1 m2 B n, w.value breaks = some B ∧ B.shape = [n + 1] ∧ construct w (.var breaks) order tdep = some w1 ∧
      Built w B.data order tdep w1 m1 ∧ From w m1.breaks ∧
      (∀ i, (Arg.var breaks) = .var i → w.IsFloat i → B.data.length ≠ 1 → w.env[i]? = some m1.breaks) ∧
      Built w1 [B.data.getD 0 0, B.data.getD n 0] (some 1) static w' m2 ∧ w1.heap.length ≤ m2.breaks.addr := by
  unfold chaos at h
  split at h
  · rename_i w1 v h1 h2
    obtain ⟨m1, B, f1, f2, f3, f4, f5⟩ := construct_spec hw h1
    have hw1 := f2.wf hw
    split at h
    · cases h
    · rename_i heap e he
      obtain ⟨n, b, g1, g2, g3, g4, g5⟩ := endsOf_spec he
      obtain ⟨hs, k1, k2, k3, k4⟩ := asFloat_spec _ e g4
      have hv : B = v.read w.heap := by
        simp only [World.arg, World.value, h2, Option.map_some, Option.some.injEq] at f1
        exact f1.symm
      have hmem : v ∈ w.env := List.mem_of_getElem? h2
      subst g2
      rw [k1, List.append_assoc] at h
      have k3' : Inside (w1.heap ++ ([b] ++ hs)) (asFloat (w1.heap ++ [b]) e).2 := by
        rw [k1, List.append_assoc] at k3
        exact k3
      obtain ⟨m2, l1, l2, l3, l4⟩ := build_spec hw1 k3' h
      obtain ⟨hs1, hh1⟩ := f2.heap
      have hread : (View.read (w1.heap ++ ([b] ++ hs)) (asFloat (w1.heap ++ [b]) e).2).data = [B.data.getD 0 0, B.data.getD n 0] := by
        have : w1.heap ++ ([b] ++ hs) = (asFloat (w1.heap ++ [b]) e).1 := by rw [k1, List.append_assoc]
        rw [this, k4, g5, hv, hh1, read_append (hw.env v hmem).1]
      rw [hread] at l1
      refine ⟨w1, m1, m2, B, n, f1, ?_, h1, f2, f3, f5, l1, ?_⟩
      · rw [hv]; exact g1
      · rcases l2 with l2 | l2
        · rw [l2]
          rcases k2 with k2 | k2
          · rw [k2]; exact g3
          · simp only [List.length_append] at k2; omega
        · exact l2
  · cases h

/-- The memory after a write. -/
def written (w : World) (v : View) (j : ℕ) (x : ℝ) : World :=
  { w with heap := w.heap.set v.addr { block w.heap v.addr with data := (block w.heap v.addr).data.set (v.off + j) x } }

theorem block_set (heap : List Block) (a : ℕ) (b : Block) (a' : ℕ) (h : a < heap.length) :
    block (heap.set a b) a' = if a = a' then b else block heap a' := by
  simp only [block, List.getD_eq_getElem?_getD, List.getElem?_set]
  by_cases hc : a = a'
  · subst hc
    simp [h]
  · simp [hc]

theorem inside_written {w : World} {v u : View} {j : ℕ} {x : ℝ} (hv : v.addr < w.heap.length) (h : Inside w.heap u) :
    Inside (written w v j x).heap u := by
  refine ⟨by simpa [written] using h.1, ?_⟩
  have := h.2
  simp only [written, block_set _ _ _ _ hv]
  split
  · rename_i he
    rw [he]
    simpa using this
  · exact this

theorem read_written_other {w : World} {v u : View} {j : ℕ} {x : ℝ} (hv : v.addr < w.heap.length) (hj : j < v.size) (h : ¬ Shares v u) :
    u.read (written w v j x).heap = u.read w.heap := by
  simp only [View.read, written, block_set _ _ _ _ hv]
  split
  · rename_i he
    congr 1
    have : ¬ (u.off ≤ v.off + j ∧ v.off + j < u.off + u.size) := fun hc => h ⟨he, v.off + j, ⟨by omega, by omega⟩, hc⟩
    rw [he]
    apply List.ext_getElem?
    intro k
    simp only [List.getElem?_take, List.getElem?_drop, List.getElem?_set]
    split
    · rw [if_neg (by omega)]
    · rfl
  · rfl

theorem read_written_same {w : World} {v u : View} {j k : ℕ} {x : ℝ} (hv : v.addr < w.heap.length) (ha : v.addr = u.addr)
    (hk : v.off + j = u.off + k) : u.read (written w v j x).heap = Arr.put (u.read w.heap) k x := by
  simp only [View.read, written, block_set _ _ _ _ hv, if_pos ha, Arr.put, Arr.mk.injEq, true_and]
  rw [ha, hk]
  apply List.ext_getElem?
  intro i
  simp only [List.getElem?_take, List.getElem?_drop, List.getElem?_set, List.length_take, List.length_drop]
  by_cases h1 : i < u.size
  · by_cases h2 : k = i
    · subst h2
      simp only [h1, if_true, lt_min_iff, true_and, Nat.lt_sub_iff_add_lt, Nat.add_comm]
    · rw [if_pos h1, if_neg (by omega), if_pos h1, if_neg h2]
  · rw [if_neg h1]
    by_cases h2 : k = i
    · subst h2
      rw [if_pos rfl, if_neg (by omega)]
    · rw [if_neg h2, if_neg h1]

/-- What an operation that is not a write does: memory, variables and models are only added. -/
structure Grow (w : World) (op : Op) (w' : World) (hs : List Block) (es : List View) (ms : List Model) : Prop where
  heap : w'.heap = w.heap ++ hs
  env : w'.env = w.env ++ es
  models : w'.models = w.models ++ ms
  fromE : ∀ e ∈ es, From w e ∨ ∃ k m, w.models[k]? = some m ∧ ((op = .getBreaks k ∧ e = m.breaks) ∨ (op = .getCoeffs k ∧ e = m.coeffs))
  fromM : ∀ m ∈ ms, From w m.breaks ∧ From w m.coeffs
  wf : WF w'

theorem keep_grow {w : World} (hw : WF w) {a : Arr} (ha : a.data.length = a.shape.prod) :
    ∃ b v, (keep w a).heap = w.heap ++ [b] ∧ (keep w a).env = w.env ++ [v] ∧ (keep w a).models = w.models ∧ v.addr = w.heap.length ∧ WF (keep w a) ∧
      v.read (keep w a).heap = a := by
  have h := alloc_spec w.heap true a ha
  refine ⟨_, _, h.1, rfl, rfl, h.2.1, ⟨fun v hv => ?_, fun m hm => ?_⟩, h.2.2.2⟩
  · simp only [keep, List.mem_append, List.mem_singleton] at hv
    rcases hv with hv | hv
    · simp only [keep]
      rw [h.1]
      exact (hw.env v hv).append _
    · subst hv
      exact h.2.2.1
  · simp only [keep]
    rw [h.1]
    exact ⟨(hw.models m hm).1.append _, (hw.models m hm).2.append _⟩

theorem ppArrays_ok {heap : List Block} {m : Model} {b c : Arr} (h : ppArrays heap m = some (b, c)) :
    b.data.length = b.shape.prod ∧ c.data.length = c.shape.prod := by
  unfold ppArrays at h
  simp only at h
  split at h
  · cases h
  · rw [Option.some.injEq, Prod.mk.injEq] at h
    obtain ⟨h1, h2⟩ := h
    rw [← h1, ← h2]
    refine ⟨by simp, ?_⟩
    simp [List.length_flatMap]

theorem synthCoeffs_rows {b : Base} {times : List ℝ} {dim deriv : Option ℕ} {ex : Option Extrap} {d : ℕ} {rows : List (Option (ℕ → ℝ))}
    (h : b.synthCoeffs times dim deriv ex = .ok (d, rows)) : rows.length = times.length := by
  unfold Base.synthCoeffs at h
  split at h
  · cases h
  · split at h
    · cases h
    · simp only [bind, Except.bind, pure, Except.pure] at h
      split at h
      · cases h
      · rw [Except.ok.injEq, Prod.mk.injEq] at h
        rw [← h.2, List.length_map]

theorem synthArray_ok {heap : List Block} {m : Model} {times : List ℝ} {dim deriv : Option ℕ} {ex : Option Extrap} {a : Arr}
    (h : synthArray heap m times dim deriv ex = some a) : a.data.length = a.shape.prod := by
  unfold synthArray at h
  split at h
  · cases h
  · rename_i d rows hr
    rw [Option.some.injEq] at h
    rw [← h]
    simp [List.length_flatMap, synthCoeffs_rows hr]

theorem step_spec {w w' : World} (hw : WF w) {op : Op} (h : step w op = some w') :
    (∃ i j x v, op = .write i j x ∧ w.env[i]? = some v ∧ j < v.size ∧ w' = written w v j x) ∨
    (∃ hs es ms, Grow w op w' hs es ms) := by
  cases op with
  | array f a =>
    right
    simp only [step] at h
    split at h
    · rename_i ha
      have hs := alloc_spec w.heap f a ha
      rw [Option.some.injEq] at h
      subst h
      refine ⟨_, _, [], hs.1, rfl, by simp, fun e he => ?_, fun m hm => (nomatch hm), ⟨fun v hv => ?_, fun m hm => ?_⟩⟩
      · rw [List.mem_singleton] at he
        subst he
        exact Or.inl (Or.inl hs.2.1.ge)
      · simp only [List.mem_append, List.mem_singleton] at hv
        rcases hv with hv | hv
        · simp only [hs.1]
          exact (hw.env v hv).append _
        · subst hv
          exact hs.2.2.1
      · simp only [hs.1]
        exact ⟨(hw.models m hm).1.append _, (hw.models m hm).2.append _⟩
    · cases h
  | slice i k =>
    right
    simp only [step] at h
    split at h
    · cases h
    · rename_i v hv
      have hmem : v ∈ w.env := List.mem_of_getElem? hv
      split at h
      · cases h
      · rename_i n s hs
        rw [Option.some.injEq] at h
        subst h
        refine ⟨[], _, [], by simp, rfl, by simp, fun e he => ?_, fun m hm => (nomatch hm), ⟨fun u hu => ?_, fun m hm => hw.models m hm⟩⟩
        · rw [List.mem_singleton] at he
          subst he
          exact Or.inl (Or.inr ⟨v, hmem, rfl⟩)
        · simp only [List.mem_append, List.mem_singleton] at hu
          rcases hu with hu | hu
          · exact hw.env u hu
          · subst hu
            have := (hw.env v hmem)
            refine ⟨this.1, ?_⟩
            have h2 := this.2
            simp only [View.size, hs, List.prod_cons] at h2 ⊢
            have : min k n * s.prod + (n - k) * s.prod = n * s.prod := by
              rw [← Nat.add_mul]; congr 1; omega
            omega
  | write i j x =>
    left
    simp only [step] at h
    split at h
    · cases h
    · rename_i v hv
      split at h
      · rename_i hj
        rw [Option.some.injEq] at h
        exact ⟨i, j, x, v, rfl, hv, hj, h.symm⟩
      · cases h
  | model b o c =>
    right
    simp only [step] at h
    obtain ⟨m, B, h1, h2, h3, h4, h5⟩ := construct_spec hw h
    obtain ⟨hs, hh⟩ := h2.heap
    refine ⟨hs, [], [m], hh, by simp [h2.env], h2.models, fun e he => (nomatch he), fun m' hm' => ?_, h2.wf hw⟩
    rw [List.mem_singleton] at hm'
    subst hm'
    exact ⟨h3, h2.fromC⟩
  | chaos b o t s =>
    right
    simp only [step] at h
    obtain ⟨w1, m1, m2, B, n, h1, h2, h3, h4, h5, h6, h7, h8⟩ := chaos_spec hw h
    obtain ⟨hs, hh⟩ := h4.heap
    obtain ⟨hs', hh'⟩ := h7.heap
    refine ⟨hs ++ hs', [], [m1, m2], by rw [hh', hh, List.append_assoc], by simp [h7.env, h4.env], by simp [h7.models, h4.models],
      fun e he => (nomatch he), fun m' hm' => ?_, h7.wf (h4.wf hw)⟩
    have hlen : w.heap.length ≤ w1.heap.length := by rw [hh]; simp
    simp only [List.mem_cons, List.not_mem_nil, or_false] at hm'
    rcases hm' with hm' | hm'
    · subst hm'
      exact ⟨h5, h4.fromC⟩
    · subst hm'
      refine ⟨Or.inl (hlen.trans h8), ?_⟩
      rcases h7.fromC with hf | hf
      · exact Or.inl (hlen.trans hf)
      · rw [h4.env] at hf
        exact Or.inr hf
  | getBreaks k =>
    right
    simp only [step] at h
    split at h
    · cases h
    · rename_i m hm
      rw [Option.some.injEq] at h
      subst h
      refine ⟨[], _, [], by simp, rfl, by simp, fun e he => ?_, fun m hm => (nomatch hm), ⟨fun u hu => ?_, fun m hm => hw.models m hm⟩⟩
      · rw [List.mem_singleton] at he
        exact Or.inr ⟨k, m, hm, Or.inl ⟨rfl, he⟩⟩
      · simp only [List.mem_append, List.mem_singleton] at hu
        rcases hu with hu | hu
        · exact hw.env u hu
        · subst hu
          exact (hw.models m (List.mem_of_getElem? hm)).1
  | getCoeffs k =>
    right
    simp only [step] at h
    split at h
    · cases h
    · rename_i m hm
      rw [Option.some.injEq] at h
      subst h
      refine ⟨[], _, [], by simp, rfl, by simp, fun e he => ?_, fun m hm => (nomatch hm), ⟨fun u hu => ?_, fun m hm => hw.models m hm⟩⟩
      · rw [List.mem_singleton] at he
        exact Or.inr ⟨k, m, hm, Or.inr ⟨rfl, he⟩⟩
      · simp only [List.mem_append, List.mem_singleton] at hu
        rcases hu with hu | hu
        · exact hw.env u hu
        · subst hu
          exact (hw.models m (List.mem_of_getElem? hm)).2
  | toPP k =>
    right
    simp only [step] at h
    split at h
    · cases h
    · split at h
      · cases h
      · rename_i b c hp
        obtain ⟨hb, hc⟩ := ppArrays_ok hp
        rw [Option.some.injEq] at h
        subst h
        obtain ⟨b1, v1, e1, e2, e3, e4, e5, -⟩ := keep_grow hw hb
        obtain ⟨b2, v2, f1, f2, f3, f4, f5, -⟩ := keep_grow e5 hc
        refine ⟨[b1, b2], [v1, v2], [], by simp [f1, e1], by simp [f2, e2], by simp [f3, e3], fun e he => ?_, fun m hm => (nomatch hm), f5⟩
        simp only [List.mem_cons, List.not_mem_nil, or_false] at he
        rcases he with he | he
        · subst he; exact Or.inl (Or.inl e4.ge)
        · subst he; rw [e1] at f4; simp only [List.length_append] at f4; exact Or.inl (Or.inl (by omega))
  | synth k times dim deriv ex =>
    right
    simp only [step] at h
    split at h
    · cases h
    · split at h
      · cases h
      · rename_i a hp
        rw [Option.some.injEq] at h
        subst h
        obtain ⟨b1, v1, e1, e2, e3, e4, e5, -⟩ := keep_grow hw (synthArray_ok hp)
        refine ⟨[b1], [v1], [], e1, e2, by simp [e3], fun e he => ?_, fun m hm => (nomatch hm), e5⟩
        rw [List.mem_singleton] at he
        subst he; exact Or.inl (Or.inl e4.ge)

theorem written_wf {w : World} (hw : WF w) {v : View} (hv : v ∈ w.env) (j : ℕ) (x : ℝ) : WF (written w v j x) :=
  ⟨fun u hu => inside_written (hw.env v hv).1 (hw.env u hu),
    fun m hm => ⟨inside_written (hw.env v hv).1 (hw.models m hm).1, inside_written (hw.env v hv).1 (hw.models m hm).2⟩⟩

theorem attempt_wf {w : World} (hw : WF w) (op : Op) : WF (attempt w op) := by
  unfold attempt
  cases h : step w op with
  | none => exact hw
  | some w' =>
    rcases step_spec hw h with ⟨i, j, x, v, -, hv, -, rfl⟩ | ⟨_, _, _, g⟩
    · exact written_wf hw (List.mem_of_getElem? hv) j x
    · exact g.wf

theorem start_wf : WF start := ⟨fun _ h => (nomatch h), fun _ h => (nomatch h)⟩

theorem run_wf {w : World} (hw : WF w) (ops : List Op) : WF (run w ops) := by
  induction ops generalizing w with
  | nil => exact hw
  | cons op ops ih => exact ih (attempt_wf hw op)

theorem run_append (w : World) (p q : List Op) : run w (p ++ q) = run (run w p) q := by simp [run, List.foldl_append]

end ChaosMagPy.ModelHeap
