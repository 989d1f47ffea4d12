import Verif.Model.NumPy
/-! Broadcasting lemmas. -/
namespace ChaosMagPy.NumPy
open ChaosMagPy.Synth (Error)

/-- A shape can be broadcast into another one (last axis first). -/
def IntoRev : List ℕ → List ℕ → Prop
  | [], _ => True
  | _ :: _, [] => False
  | m :: s, n :: G => (m = 1 ∨ m = n) ∧ IntoRev s G

/-- A shape can be broadcast into another one. -/
def Into (s G : List ℕ) : Prop := IntoRev s.reverse G.reverse

theorem intoRev_refl (s : List ℕ) : IntoRev s s := by
  induction s with
  | nil => trivial
  | cons m s ih => exact ⟨Or.inr rfl, ih⟩

theorem into_refl (s : List ℕ) : Into s s := intoRev_refl _

theorem into_nil (G : List ℕ) : Into [] G := trivial

theorem bcastRev_nil (s : List ℕ) : bcastRev s [] = some s := by cases s <;> rfl

theorem intoRev_trans {s t G : List ℕ} (h1 : IntoRev s t) (h2 : IntoRev t G) : IntoRev s G := by
  induction s generalizing t G with
  | nil => trivial
  | cons m s ih =>
    cases t with
    | nil => exact h1.elim
    | cons n t =>
      cases G with
      | nil => exact h2.elim
      | cons g G =>
        refine ⟨?_, ih h1.2 h2.2⟩
        rcases h1.1 with h | h
        · exact Or.inl h
        · rw [h]; exact h2.1

theorem into_trans {s t G : List ℕ} (h1 : Into s t) (h2 : Into t G) : Into s G := intoRev_trans h1 h2

theorem bcastRev_into {s t r : List ℕ} (h : bcastRev s t = some r) : IntoRev s r ∧ IntoRev t r := by
  induction s generalizing t r with
  | nil =>
    simp only [bcastRev, Option.some.injEq] at h
    subst h
    exact ⟨trivial, intoRev_refl _⟩
  | cons m s ih =>
    cases t with
    | nil =>
      simp only [bcastRev, Option.some.injEq] at h
      subst h
      exact ⟨intoRev_refl _, trivial⟩
    | cons n t =>
      simp only [bcastRev, Option.bind_eq_some_iff] at h
      obtain ⟨r', h1, h2⟩ := h
      obtain ⟨i1, i2⟩ := ih h1
      split_ifs at h2 with a b c
      · cases h2; exact ⟨⟨Or.inr rfl, i1⟩, ⟨Or.inr a.symm, i2⟩⟩
      · cases h2; exact ⟨⟨Or.inl b, i1⟩, ⟨Or.inr rfl, i2⟩⟩
      · cases h2; exact ⟨⟨Or.inr rfl, i1⟩, ⟨Or.inl c, i2⟩⟩

theorem bcast_into {s t r : List ℕ} (h : bcast s t = some r) : Into s r ∧ Into t r := by
  unfold bcast at h
  obtain ⟨r', h1, h2⟩ := Option.map_eq_some_iff.1 h
  subst h2
  unfold Into
  rw [List.reverse_reverse]
  exact bcastRev_into h1

theorem projRev_comp {s t r : List ℕ} (h : bcastRev s t = some r) (i : List ℕ) :
    projRev s (projRev r i) = projRev s i ∧ projRev t (projRev r i) = projRev t i := by
  have idem : ∀ (s i : List ℕ), projRev s (projRev s i) = projRev s i := by
    intro s
    induction s with
    | nil => intro i; rfl
    | cons m s ih =>
      intro i
      cases i with
      | nil => rfl
      | cons k i =>
        simp only [projRev, ih]
        split_ifs <;> rfl
  induction s generalizing t r i with
  | nil =>
    simp only [bcastRev, Option.some.injEq] at h
    subst h
    exact ⟨rfl, idem _ _⟩
  | cons m s ih =>
    cases t with
    | nil =>
      simp only [bcastRev, Option.some.injEq] at h
      subst h
      exact ⟨idem _ _, rfl⟩
    | cons n t =>
      simp only [bcastRev, Option.bind_eq_some_iff] at h
      obtain ⟨r', h1, h2⟩ := h
      have key : ∃ x, r = x :: r' ∧ (m ≠ 1 → x = m) ∧ (n ≠ 1 → x = n) := by
        split_ifs at h2 with a b c
        · cases h2; exact ⟨m, rfl, fun _ => rfl, fun _ => a⟩
        · cases h2; exact ⟨n, rfl, fun h => absurd b h, fun _ => rfl⟩
        · cases h2; exact ⟨m, rfl, fun _ => rfl, fun h => absurd c h⟩
      obtain ⟨x, rfl, k1, k2⟩ := key
      cases i with
      | nil => exact ⟨rfl, rfl⟩
      | cons k i =>
        obtain ⟨j1, j2⟩ := ih h1 i
        simp only [projRev, j1, j2]
        constructor
        · by_cases hm : m = 1
          · rw [if_pos hm, if_pos hm]
          · rw [if_neg hm, if_neg hm, if_neg (by rw [k1 hm]; exact hm)]
        · by_cases hn : n = 1
          · rw [if_pos hn, if_pos hn]
          · rw [if_neg hn, if_neg hn, if_neg (by rw [k2 hn]; exact hn)]

theorem bcastRev_of_into {s t G : List ℕ} (h1 : IntoRev s G) (h2 : IntoRev t G) : ∃ r, bcastRev s t = some r ∧ IntoRev r G := by
  induction s generalizing t G with
  | nil => exact ⟨t, rfl, h2⟩
  | cons m s ih =>
    cases t with
    | nil => exact ⟨m :: s, rfl, h1⟩
    | cons n t =>
      cases G with
      | nil => exact h1.elim
      | cons g G =>
        obtain ⟨r, hr, hi⟩ := ih h1.2 h2.2
        simp only [bcastRev, hr, Option.bind_some]
        split_ifs with a b c
        · exact ⟨_, rfl, h1.1, hi⟩
        · exact ⟨_, rfl, h2.1, hi⟩
        · exact ⟨_, rfl, h1.1, hi⟩
        · rcases h1.1 with h | h
          · exact absurd h b
          · rcases h2.1 with h' | h'
            · exact absurd h' c
            · exact absurd (h.trans h'.symm) a

theorem bcastRev_self {t G : List ℕ} (h : IntoRev t G) : bcastRev G t = some G := by
  induction G generalizing t with
  | nil =>
    cases t with
    | nil => rfl
    | cons n t => exact h.elim
  | cons g G ih =>
    cases t with
    | nil => rfl
    | cons n t =>
      simp only [bcastRev, ih h.2, Option.bind_some]
      rcases h.1 with h' | h'
      · split_ifs with a b
        · rfl
        · rw [h', b]
        · rfl
      · rw [if_pos h'.symm]

theorem bcast_self {t G : List ℕ} (h : Into t G) : bcast G t = some G := by
  unfold bcast
  rw [bcastRev_self h]
  simp

theorem valid_rev {s i : List ℕ} (h : Valid s i) : Valid s.reverse i.reverse := List.rel_reverse h

theorem projRev_valid {s i : List ℕ} (h : Valid s i) : projRev s i = i := by
  unfold Valid at h
  induction h with
  | nil => rfl
  | cons h _ ih =>
    rename_i k n i s _
    simp only [projRev, ih]
    split_ifs with h1
    · congr 1; omega
    · rfl

/-- An array of the full shape is not changed by broadcasting. -/
theorem proj_valid {s i : List ℕ} (h : Valid s i) : proj s i = i := by
  unfold proj
  rw [projRev_valid (valid_rev h), List.reverse_reverse]

theorem at_valid {α : Type} (a : Arr α) (i : List ℕ) (h : Valid a.shape i) : a.at i = a.get i := by
  unfold Arr.at
  rw [proj_valid h]

/-- Values of an elementwise operation. -/
theorem map2_into {α β γ : Type} (f : α → β → γ) (a : Arr α) (b : Arr β) (G : List ℕ) (ha : Into a.shape G) (hb : Into b.shape G) :
    ∃ c, map2 f a b = .ok c ∧ Into c.shape G ∧ ∀ i, c.at i = f (a.at i) (b.at i) := by
  obtain ⟨r, hr, hi⟩ := bcastRev_of_into ha hb
  refine ⟨⟨r.reverse, fun i => f (a.at i) (b.at i)⟩, ?_, ?_, ?_⟩
  · unfold map2 bcast
    rw [hr]
    rfl
  · show IntoRev r.reverse.reverse _
    rw [List.reverse_reverse]
    exact hi
  · intro i
    obtain ⟨h1, h2⟩ := projRev_comp hr i.reverse
    show f (a.at (proj r.reverse i)) (b.at (proj r.reverse i)) = _
    unfold Arr.at proj
    rw [List.reverse_reverse, List.reverse_reverse, h1, h2]

/-- The expression gives an array that fits into the shape `G`, with the values `v`. -/
def Reps (G : List ℕ) (x : AE) (v : List ℕ → ℝ) : Prop := ∃ c, x.run = .ok c ∧ Into c.shape G ∧ ∀ i, c.at i = v i

theorem reps_lift2 {G : List ℕ} {x y : AE} {u v : List ℕ → ℝ} (f : ℝ → ℝ → ℝ) (hx : Reps G x u) (hy : Reps G y v) :
    Reps G ⟨lift2 f x.run y.run⟩ fun i => f (u i) (v i) := by
  obtain ⟨a, h1, h2, h3⟩ := hx
  obtain ⟨b, k1, k2, k3⟩ := hy
  obtain ⟨c, hc, hi, hv⟩ := map2_into f a b G h2 k2
  refine ⟨c, ?_, hi, fun i => by rw [hv, h3, k3]⟩
  show lift2 f x.run y.run = _
  rw [h1, k1]
  exact hc

theorem Reps.mul {G : List ℕ} {x y : AE} {u v : List ℕ → ℝ} (hx : Reps G x u) (hy : Reps G y v) : Reps G (x * y) fun i => u i * v i :=
  reps_lift2 _ hx hy
theorem Reps.add {G : List ℕ} {x y : AE} {u v : List ℕ → ℝ} (hx : Reps G x u) (hy : Reps G y v) : Reps G (x + y) fun i => u i + v i :=
  reps_lift2 _ hx hy
theorem Reps.sub {G : List ℕ} {x y : AE} {u v : List ℕ → ℝ} (hx : Reps G x u) (hy : Reps G y v) : Reps G (x - y) fun i => u i - v i :=
  reps_lift2 _ hx hy
theorem Reps.div {G : List ℕ} {x y : AE} {u v : List ℕ → ℝ} (hx : Reps G x u) (hy : Reps G y v) : Reps G (x / y) fun i => u i / v i :=
  reps_lift2 _ hx hy
theorem Reps.neg {G : List ℕ} {x : AE} {u : List ℕ → ℝ} (hx : Reps G x u) : Reps G (-x) fun i => -u i := by
  obtain ⟨a, h1, h2, h3⟩ := hx
  refine ⟨a.map fun v => -v, ?_, h2, fun i => by show _ = -u i; rw [← h3 i]; rfl⟩
  show (match x.run with | .ok a => Except.ok (a.map fun v => -v) | .error e => .error e) = _
  rw [h1]

theorem Reps.arr {G : List ℕ} (a : Arr ℝ) (h : Into a.shape G) : Reps G a.e fun i => a.at i := ⟨a, rfl, h, fun _ => rfl⟩
theorem Reps.num {G : List ℕ} (x : ℝ) : Reps G (num x) fun _ => x := ⟨scalar x, rfl, into_nil G, fun _ => rfl⟩

/-- In-place addition to an array of the full shape. -/
theorem iadd_reps {G : List ℕ} (B : Arr ℝ) (hB : B.shape = G) {x : AE} {u : List ℕ → ℝ} (hx : Reps G x u) :
    ∃ C, iadd B x = .ok C ∧ C.shape = G ∧ ∀ i, C.get i = B.get i + u i := by
  obtain ⟨a, h1, h2, h3⟩ := hx
  refine ⟨⟨B.shape, fun i => B.get i + a.at i⟩, ?_, hB, fun i => by rw [← h3]⟩
  unfold iadd
  rw [h1]
  simp only
  rw [if_pos]
  rw [hB]
  exact bcast_self h2

theorem iadd_error (B : Arr ℝ) {x : AE} {e : Error} (h : x.run = .error e) : iadd B x = .error e := by
  unfold iadd
  rw [h]

/-- `a[..., k]`. -/
theorem sel_reps {G lead : List ℕ} (a : Arr ℝ) (d k : ℕ) (ha : a.shape = lead ++ [d]) (h : Into lead G) (hk : k < d) :
    Reps G (a.sel k) fun i => a.get (proj lead i ++ [k]) := by
  refine ⟨⟨lead, fun i => a.get (i ++ [k])⟩, ?_, h, fun i => rfl⟩
  unfold Arr.sel
  simp only [ha, List.getLast?_append, List.getLast?_singleton, Option.some_or]
  rw [if_pos hk, List.dropLast_concat]

theorem sel_error {lead : List ℕ} (a : Arr ℝ) (d k : ℕ) (ha : a.shape = lead ++ [d]) (hk : ¬ k < d) : (a.sel k).run = .error .indexError := by
  unfold Arr.sel
  simp only [ha, List.getLast?_append, List.getLast?_singleton, Option.some_or]
  rw [if_neg hk]

theorem mem_indices {s i : List ℕ} : i ∈ indices s ↔ Valid s i := by
  unfold Valid
  induction s generalizing i with
  | nil =>
    simp only [indices, List.mem_singleton, List.forall₂_nil_right_iff]
  | cons n s ih =>
    simp only [indices, List.mem_flatMap, List.mem_range, List.mem_map]
    constructor
    · rintro ⟨k, hk, j, hj, rfl⟩
      exact List.Forall₂.cons hk (ih.1 hj)
    · intro h
      cases h with
      | cons h1 h2 => exact ⟨_, h1, _, ih.2 h2, rfl⟩

/-- Shapes of several arrays. -/
theorem broadcast_into {l : List (List ℕ)} {G : List ℕ} (h : broadcast l = some G) : ∀ s ∈ l, Into s G := by
  have key : ∀ (l : List (List ℕ)) (s0 G : List ℕ), l.foldlM bcast s0 = some G → Into s0 G ∧ ∀ s ∈ l, Into s G := by
    intro l
    induction l with
    | nil =>
      intro s0 G h
      simp only [List.foldlM_nil, pure, Option.some.injEq] at h
      subst h
      exact ⟨into_refl _, by simp⟩
    | cons s l ih =>
      intro s0 G h
      simp only [List.foldlM_cons, bind, Option.bind_eq_some_iff] at h
      obtain ⟨r, h1, h2⟩ := h
      obtain ⟨i1, i2⟩ := ih r G h2
      obtain ⟨j1, j2⟩ := bcast_into h1
      refine ⟨into_trans j1 i1, ?_⟩
      intro t ht
      rcases List.mem_cons.1 ht with rfl | ht
      · exact into_trans j2 i1
      · exact i2 t ht
  exact (key l [] G h).2

/-- Broadcasting gives valid indices. -/
theorem proj_isValid {s G i : List ℕ} (h : Into s G) (hi : Valid G i) : Valid s (proj s i) := by
  have key : ∀ (s G i : List ℕ), IntoRev s G → Valid G i → Valid s (projRev s i) := by
    intro s
    induction s with
    | nil => intro G i _ _; exact List.Forall₂.nil
    | cons m s ih =>
      intro G i h hi
      cases G with
      | nil => exact h.elim
      | cons g G =>
        cases hi with
        | cons h1 h2 =>
          rename_i k i
          refine List.Forall₂.cons ?_ (ih G i h.2 h2)
          split_ifs with hm
          · omega
          · rcases h.1 with h' | h'
            · exact absurd h' hm
            · omega
  have := valid_rev (key _ _ _ h (valid_rev hi))
  rw [List.reverse_reverse] at this
  exact this

/-- Every element of the small array is used. -/
theorem proj_surj {s G j : List ℕ} (h : Into s G) (h0 : 0 ∉ G) (hj : Valid s j) : ∃ i, Valid G i ∧ proj s i = j := by
  have key : ∀ (s G j : List ℕ), IntoRev s G → 0 ∉ G → Valid s j → ∃ i, Valid G i ∧ projRev s i = j := by
    intro s G
    induction G generalizing s with
    | nil =>
      intro j h _ hj
      cases s with
      | nil => cases hj; exact ⟨[], List.Forall₂.nil, rfl⟩
      | cons m s => exact h.elim
    | cons g G ih =>
      intro j h h0 hj
      simp only [List.mem_cons, not_or] at h0
      cases s with
      | nil =>
        cases hj
        obtain ⟨i, hi, _⟩ := ih [] [] trivial h0.2 List.Forall₂.nil
        exact ⟨0 :: i, List.Forall₂.cons (by omega) hi, rfl⟩
      | cons m s =>
        cases hj with
        | cons h1 h2 =>
          rename_i k j
          obtain ⟨i, hi, hp⟩ := ih s j h.2 h0.2 h2
          by_cases hm : m = 1
          · refine ⟨0 :: i, List.Forall₂.cons (by omega) hi, ?_⟩
            simp only [projRev, hp, if_pos hm]
            congr 1
            omega
          · refine ⟨k :: i, List.Forall₂.cons ?_ hi, ?_⟩
            · rcases h.1 with h' | h'
              · exact absurd h' hm
              · omega
            · simp only [projRev, hp, if_neg hm]
  obtain ⟨i, hi, hp⟩ := key s.reverse G.reverse j.reverse h (by simpa using h0) (valid_rev hj)
  refine ⟨i.reverse, ?_, ?_⟩
  · have := valid_rev hi
    rwa [List.reverse_reverse] at this
  · unfold proj
    rw [List.reverse_reverse, hp, List.reverse_reverse]

theorem indices_ne_nil {G : List ℕ} (h : 0 ∉ G) : indices G ≠ [] := by
  obtain ⟨i, hi, _⟩ := proj_surj (s := []) (G := G) (j := []) trivial h List.Forall₂.nil
  exact List.ne_nil_of_mem (mem_indices.2 hi)

end ChaosMagPy.NumPy

namespace ChaosMagPy.NumPy

theorem projRev_into {s t : List ℕ} (h : IntoRev s t) (i : List ℕ) : projRev s (projRev t i) = projRev s i := by
  induction s generalizing t i with
  | nil => rfl
  | cons m s ih =>
    cases t with
    | nil => exact h.elim
    | cons n t =>
      cases i with
      | nil => rfl
      | cons k i =>
        simp only [projRev, ih h.2]
        congr 1
        by_cases hm : m = 1
        · rw [if_pos hm, if_pos hm]
        · rcases h.1 with h' | h'
          · exact absurd h' hm
          · rw [if_neg hm, if_neg hm, if_neg (by rw [← h']; exact hm)]

theorem proj_into {s t : List ℕ} (h : Into s t) (i : List ℕ) : proj s (proj t i) = proj s i := by
  unfold proj
  rw [List.reverse_reverse, projRev_into h]

theorem at_proj {α : Type} (a : Arr α) {t : List ℕ} (h : Into a.shape t) (i : List ℕ) : a.at (proj t i) = a.at i := by
  unfold Arr.at
  rw [proj_into h]

theorem intoRev_antisymm {s t : List ℕ} (h1 : IntoRev s t) (h2 : IntoRev t s) : s = t := by
  induction s generalizing t with
  | nil =>
    cases t with
    | nil => rfl
    | cons n t => exact h2.elim
  | cons m s ih =>
    cases t with
    | nil => exact h1.elim
    | cons n t =>
      rw [ih h1.2 h2.2]
      congr 1
      rcases h1.1 with a | a <;> rcases h2.1 with b | b <;> omega

theorem into_antisymm {s t : List ℕ} (h1 : Into s t) (h2 : Into t s) : s = t := by
  have := intoRev_antisymm h1 h2
  simpa using congrArg List.reverse this

theorem bcastRev_least {s t r G : List ℕ} (h : bcastRev s t = some r) (h1 : IntoRev s G) (h2 : IntoRev t G) : IntoRev r G := by
  obtain ⟨r', hr, hi⟩ := bcastRev_of_into h1 h2
  rw [h] at hr
  cases hr
  exact hi

/-- The broadcast shape exists if all shapes fit into one shape, and it is the smallest one. -/
theorem broadcast_of_into {l : List (List ℕ)} {G : List ℕ} (h : ∀ s ∈ l, Into s G) : ∃ r, broadcast l = some r ∧ Into r G := by
  have key : ∀ (l : List (List ℕ)) (s0 : List ℕ), Into s0 G → (∀ s ∈ l, Into s G) → ∃ r, l.foldlM bcast s0 = some r ∧ Into r G := by
    intro l
    induction l with
    | nil => intro s0 h0 _; exact ⟨s0, rfl, h0⟩
    | cons s l ih =>
      intro s0 h0 h
      obtain ⟨r, hr, hi⟩ := bcastRev_of_into h0 (h s List.mem_cons_self)
      obtain ⟨r', h1, h2⟩ := ih r.reverse (by unfold Into; rw [List.reverse_reverse]; exact hi) (fun t ht => h t (List.mem_cons_of_mem _ ht))
      refine ⟨r', ?_, h2⟩
      simp only [List.foldlM_cons, bind, bcast, hr, Option.map_some, Option.bind_some]
      exact h1
  exact key l [] trivial h

/-- Broadcasting does not depend on the order and on repetitions of the arrays. -/
theorem broadcast_congr {l l' : List (List ℕ)} {G : List ℕ} (h : broadcast l = some G) (h1 : ∀ s ∈ l', s ∈ l ∨ s = [])
    (h2 : ∀ s ∈ l, s ∈ l' ∨ s = []) : broadcast l' = some G := by
  have i1 := broadcast_into h
  obtain ⟨r, hr, hi⟩ := broadcast_of_into (l := l') (G := G) (by
    intro s hs
    rcases h1 s hs with h' | h'
    · exact i1 s h'
    · rw [h']; exact into_nil G)
  have i2 := broadcast_into hr
  obtain ⟨r', hr', hi'⟩ := broadcast_of_into (l := l) (G := r) (by
    intro s hs
    rcases h2 s hs with h' | h'
    · exact i2 s h'
    · rw [h']; exact into_nil r)
  rw [h] at hr'
  cases hr'
  rw [hr, into_antisymm hi hi']

/-- `np.reshape(l, s)`: the values of the list in C order. -/
theorem idxOf_indices {α : Type} (s i : List ℕ) (hi : Valid s i) (g : List ℕ → α) : ((indices s).map g)[(indices s).idxOf i]? = some (g i) := by
  have hm := mem_indices.2 hi
  have hlt := List.idxOf_lt_length_of_mem hm
  rw [List.getElem?_map, List.getElem?_eq_getElem hlt, List.getElem_idxOf]
  rfl

end ChaosMagPy.NumPy
