import Verif.Model.RotateArr
import Verif.Lemmas.ElemArr
import Verif.Props.Rotation
import Verif.Props.Layers
/-!
# C82: arrays in `synth_rotate_gauss` and `rotate_gauss`
-/
namespace ChaosMagPy.RotateArr
open ChaosMagPy.NumPy
open ChaosMagPy.Synth (Error)
open ChaosMagPy.Fourier (Scaled harmonic synthRotate synthRotateVec)
open ChaosMagPy.ElemArr (broadcast_iff broadcast_none)
open ChaosMagPy.Spec

/-! ### Broadcasting -/

theorem into_append3 {T : List ℕ} (k m n : ℕ) : Into (T ++ [1, 1, 1]) (T ++ [k, m, n]) := by
  have h := CoordArr.into_concat (CoordArr.into_concat (CoordArr.into_concat (into_refl T) (m := 1) (n := k) (.inl rfl)) (m := 1) (n := m) (.inl rfl)) (m := 1) (n := n) (.inl rfl)
  simpa using h

theorem into_front (T s : List ℕ) : Into s (T ++ s) := by
  unfold Into
  rw [List.reverse_append]
  generalize s.reverse = s
  generalize T.reverse = T
  induction s with
  | nil => exact trivial
  | cons a s ih =>
    rw [List.cons_append]
    exact ⟨.inr rfl, ih⟩

/-- The last three axes of a shape into which one with three new axes fits. -/
theorem into_last3 {T G : List ℕ} (h : Into (T ++ [1, 1, 1]) G) : ∃ L k m n, G = L ++ [k, m, n] ∧ Into T L := by
  unfold Into at h
  rw [List.reverse_append] at h
  have hG : G = G.reverse.reverse := (List.reverse_reverse G).symm
  generalize G.reverse = R at h hG
  match R, h with
  | n :: m :: k :: R, h =>
    refine ⟨R.reverse, k, m, n, by rw [hG]; simp, ?_⟩
    unfold Into
    rw [List.reverse_reverse]
    exact h.2.2.2

theorem proj_append3 (T i : List ℕ) (a b c : ℕ) : proj (T ++ [1, 1, 1]) (i ++ [a, b, c]) = proj T i ++ [0, 0, 0] := by
  have e1 : T ++ [1, 1, 1] = T ++ [1] ++ [1] ++ [1] := by simp
  have e2 : i ++ [a, b, c] = i ++ [a] ++ [b] ++ [c] := by simp
  rw [e1, e2, CoordArr.proj_concat, CoordArr.proj_concat, CoordArr.proj_concat]
  simp

theorem proj_length {s G i : List ℕ} (h : Into s G) (hi : Valid G i) : (proj s i).length = s.length := (proj_isValid h hi).length_eq

theorem newAxes_at (time : Arr ℝ) (L i : List ℕ) (h : Into time.shape L) (hi : Valid L i) (a b c : ℕ) : (newAxes3 time).at (i ++ [a, b, c]) = time.at i := by
  unfold Arr.at
  show time.get ((proj (time.shape ++ [1, 1, 1]) (i ++ [a, b, c])).take time.shape.length) = _
  rw [proj_append3]
  congr 1
  exact List.take_left' (proj_length h hi)

theorem map_at {α β : Type} (f : α → β) (a : Arr α) (i : List ℕ) : (a.map f).at i = f (a.at i) := rfl

theorem valid_append3 {L i : List ℕ} {k m n a b c : ℕ} (hi : Valid L i) (h1 : a < k) (h2 : b < m) (h3 : c < n) : Valid (L ++ [k, m, n]) (i ++ [a, b, c]) :=
  List.rel_append hi (.cons h1 (.cons h2 (.cons h3 .nil)))

/-! ### The Fourier series -/

/-- One harmonic, with the factor. -/
noncomputable def wave (scaled : Scaled) (f t : ℝ) : ℂ :=
  if scaled.isFalse ∧ f > 0 then 2 * (⟨Real.cos (f * t), Real.sin (f * t)⟩ : ℂ) else ⟨Real.cos (f * t), Real.sin (f * t)⟩

theorem map2_shape {α β γ : Type} (f : α → β → γ) (a : Arr α) (b : Arr β) (s : List ℕ) (h : bcast a.shape b.shape = some s) :
    map2 f a b = .ok ⟨s, fun i => f (a.at i) (b.at i)⟩ := by
  unfold map2
  rw [h]

theorem map2_none {α β γ : Type} (f : α → β → γ) (a : Arr α) (b : Arr β) (h : bcast a.shape b.shape = none) : map2 f a b = .error .valueError := by
  unfold map2
  rw [h]

theorem harmonics_eq (frequency time : Arr ℝ) (scaled : Scaled) (s : List ℕ) (hf : Into frequency.shape s) (ht : Into time.shape s) :
    ∃ H, harmonics frequency ⟨s, fun i => frequency.at i * time.at i⟩ scaled = .ok H ∧ H.shape = s ∧ ∀ i, H.at i = wave scaled (frequency.at i) (time.at i) := by
  have hfp : ∀ i, frequency.at (proj s i) = frequency.at i := fun i => at_proj frequency hf i
  have htp : ∀ i, time.at (proj s i) = time.at i := fun i => at_proj time ht i
  unfold harmonics
  simp only
  by_cases hsc : scaled.isFalse = true
  · rw [if_pos hsc]
    unfold npWhere
    simp only [bind, Except.bind]
    rw [map2_shape _ _ _ s (bcast_self (into_refl s))]
    simp only
    rw [map2_shape _ _ _ s (by
      show bcast frequency.shape s = some s
      obtain ⟨r, hr1, hr2⟩ := CoordArr.bcast_of_into hf (into_refl s)
      rw [hr1, into_antisymm hr2 (bcast_into hr1).2])]
    refine ⟨_, rfl, rfl, fun i => ?_⟩
    show (if decide (frequency.at (proj s i) > 0) = true then
        2 * (⟨Real.cos (frequency.at (proj s (proj s (proj s i))) * time.at (proj s (proj s (proj s i)))),
          Real.sin (frequency.at (proj s (proj s (proj s i))) * time.at (proj s (proj s (proj s i))))⟩ : ℂ)
      else (⟨Real.cos (frequency.at (proj s (proj s (proj s i))) * time.at (proj s (proj s (proj s i)))),
          Real.sin (frequency.at (proj s (proj s (proj s i))) * time.at (proj s (proj s (proj s i))))⟩ : ℂ)) = _
    simp only [hfp, htp, decide_eq_true_eq]
    unfold wave
    simp only [hsc, true_and]
  · rw [if_neg hsc]
    refine ⟨_, rfl, rfl, fun i => ?_⟩
    unfold wave
    rw [if_neg (fun h => hsc h.1)]
    show (⟨Real.cos (frequency.at (proj s i) * time.at (proj s i)), Real.sin (frequency.at (proj s i) * time.at (proj s i))⟩ : ℂ) = _
    simp only [hfp, htp]

/-- The product of spectrum and harmonics before the sum. -/
noncomputable def terms (time frequency : Arr ℝ) (spectrum : Arr ℂ) (scaled : Scaled) : Except Error (Arr ℂ) := do
  let freqT ← map2 (fun f t => f * t) (frequency.map fun f => 2 * Real.pi * f) (newAxes3 time)
  let harmonics ← harmonics (frequency.map fun f => 2 * Real.pi * f) freqT scaled
  map2 (fun s h => s * h) spectrum harmonics

theorem synth_terms (time frequency : Arr ℝ) (spectrum : Arr ℂ) (scaled : Scaled) :
    synthRotateGauss time frequency spectrum scaled = (terms time frequency spectrum scaled).bind fun p => (sumAxis3 p).map fun a => a.map Complex.re := by
  unfold synthRotateGauss terms
  simp only [bind, Except.bind]
  cases map2 (fun f t => f * t) (frequency.map fun f => 2 * Real.pi * f) (newAxes3 time) with
  | error e => rfl
  | ok a =>
    simp only
    cases harmonics (frequency.map fun f => 2 * Real.pi * f) a scaled with
    | error e => rfl
    | ok h =>
      simp only
      cases map2 (fun s h => s * h) spectrum h with
      | error e => rfl
      | ok p =>
        simp only
        cases sumAxis3 p <;> rfl

theorem terms_eq (time frequency : Arr ℝ) (spectrum : Arr ℂ) (scaled : Scaled) :
    (broadcast [spectrum.shape, frequency.shape, time.shape ++ [1, 1, 1]] = none → terms time frequency spectrum scaled = .error .valueError) ∧
    ∀ G, broadcast [spectrum.shape, frequency.shape, time.shape ++ [1, 1, 1]] = some G → ∃ p, terms time frequency spectrum scaled = .ok p ∧ p.shape = G ∧
      ∀ i, Valid G i → p.get i = spectrum.at i * wave scaled (2 * Real.pi * frequency.at i) ((newAxes3 time).at i) := by
  set l := [spectrum.shape, frequency.shape, time.shape ++ [1, 1, 1]] with hl
  unfold terms
  simp only [bind, Except.bind]
  cases hb : bcast frequency.shape (time.shape ++ [1, 1, 1]) with
  | none =>
    rw [map2_none _ _ _ (by exact hb)]
    refine ⟨fun _ => rfl, fun G hG => ?_⟩
    obtain ⟨r, hr, -⟩ := CoordArr.bcast_of_into (broadcast_into hG frequency.shape (by simp [hl])) (broadcast_into hG (time.shape ++ [1, 1, 1]) (by simp [hl]))
    rw [hr] at hb
    cases hb
  | some s =>
    rw [map2_shape _ _ _ s (by exact hb)]
    simp only
    obtain ⟨hf, htm⟩ := bcast_into hb
    obtain ⟨H, h1, h2, h3⟩ := harmonics_eq (frequency.map fun f => 2 * Real.pi * f) (newAxes3 time) scaled s hf htm
    rw [h1]
    simp only
    have hgl : broadcast l = bcast spectrum.shape s := by
      have e : l = [spectrum.shape] ++ [frequency.shape, time.shape ++ [1, 1, 1]] := rfl
      have e2 : broadcast [frequency.shape, time.shape ++ [1, 1, 1]] = some s := by
        have := ElemArr.broadcast_append [frequency.shape] [time.shape ++ [1, 1, 1]]
        rw [ElemArr.broadcast_single, ElemArr.broadcast_single] at this
        simp only [Option.bind_some] at this
        exact this.trans hb
      rw [e, ElemArr.broadcast_append, ElemArr.broadcast_single, e2]
      rfl
    rw [hgl]
    refine ⟨fun h => map2_none _ _ _ (by rw [h2]; exact h), fun G hG => ?_⟩
    refine ⟨_, map2_shape _ _ _ G (by rw [h2]; exact hG), rfl, fun i hi => ?_⟩
    show spectrum.at i * H.at i = _
    rw [h3]
    rfl

/-- **C82, `synth_rotate_gauss`, any shapes**: the call succeeds exactly if the shapes of `spectrum`, `frequency` and `time[..., None, None, None]` can be
broadcast (else a ValueError); the third axis from the end is summed over, and every element is the Fourier sum of its broadcast components at its broadcast time. -/
theorem C82_synth_shapes (time frequency : Arr ℝ) (spectrum : Arr ℂ) (scaled : Scaled) :
    (broadcast [spectrum.shape, frequency.shape, time.shape ++ [1, 1, 1]] = none → synthRotateGauss time frequency spectrum scaled = .error .valueError) ∧
    ∀ G, broadcast [spectrum.shape, frequency.shape, time.shape ++ [1, 1, 1]] = some G →
      ∃ (L : List ℕ) (k m n : ℕ) (b : Arr ℝ), G = L ++ [k, m, n] ∧ synthRotateGauss time frequency spectrum scaled = .ok b ∧ b.shape = L ++ [m, n] ∧
        ∀ i, Valid L i → ∀ p q, p < m → q < n → b.get (i ++ [p, q]) =
          (∑ j ∈ Finset.range k, spectrum.at (i ++ [j, p, q]) * harmonic scaled (frequency.at (i ++ [j, p, q])) (time.at i)).re := by
  obtain ⟨h1, h2⟩ := terms_eq time frequency spectrum scaled
  constructor
  · intro h
    rw [synth_terms, h1 h]
    rfl
  · intro G hG
    obtain ⟨P, hP1, hP2, hP3⟩ := h2 G hG
    obtain ⟨L, k, m, n, rfl, hT⟩ := into_last3 (broadcast_into hG (time.shape ++ [1, 1, 1]) (by simp))
    have hsum : sumAxis3 P = .ok ⟨L ++ [m, n], fun i => ∑ q ∈ Finset.range k, P.get (i.take L.length ++ q :: i.drop L.length)⟩ := by
      unfold sumAxis3
      rw [hP2]
      simp only [List.reverse_append, List.reverse_cons, List.reverse_nil, List.nil_append, List.cons_append, List.reverse_reverse, List.length_reverse]
    refine ⟨L, k, m, n, (⟨L ++ [m, n], fun i => ∑ q ∈ Finset.range k, P.get (i.take L.length ++ q :: i.drop L.length)⟩ : Arr ℂ).map Complex.re, rfl,
      by rw [synth_terms, hP1]; simp only [Except.bind, hsum, Except.map], rfl, fun i hi p q hp hq => ?_⟩
    show (∑ j ∈ Finset.range k, P.get ((i ++ [p, q]).take L.length ++ j :: (i ++ [p, q]).drop L.length)).re = _
    congr 1
    apply Finset.sum_congr rfl
    intro j hj
    rw [Finset.mem_range] at hj
    have hlen : i.length = L.length := hi.length_eq
    rw [List.take_left' hlen, List.drop_left' hlen]
    rw [hP3 _ (valid_append3 hi hj hp hq), newAxes_at time L i hT hi]
    unfold harmonic
    rfl

theorem broadcast_cube (T : List ℕ) (k m n : ℕ) : broadcast [[k, m, n], [k, m, n], T ++ [1, 1, 1]] = some (T ++ [k, m, n]) := by
  rw [broadcast_iff]
  constructor
  · intro s hs
    simp only [List.mem_cons, List.not_mem_nil, or_false] at hs
    rcases hs with rfl | rfl | rfl
    · exact into_front T _
    · exact into_front T _
    · exact into_append3 k m n
  · intro X hX
    have h1 := hX [k, m, n] (by simp)
    have h2 := hX (T ++ [1, 1, 1]) (by simp)
    obtain ⟨L, a, b, c, rfl, hL⟩ := into_last3 h2
    unfold Into at h1 hL ⊢
    simp only [List.reverse_append, List.reverse_cons, List.reverse_nil, List.nil_append, List.cons_append] at h1 ⊢
    exact ⟨h1.1, h1.2.1, h1.2.2.1, hL⟩

theorem at_cube {α : Type} (a : Arr α) (k m n : ℕ) (h : a.shape = [k, m, n]) (i : List ℕ) (j p q : ℕ) (hj : j < k) (hp : p < m) (hq : q < n) :
    a.at (i ++ [j, p, q]) = a.get [j, p, q] := by
  unfold Arr.at
  congr 1
  rw [h]
  have e1 : ([k, m, n] : List ℕ) = [] ++ [k] ++ [m] ++ [n] := rfl
  have e2 : i ++ [j, p, q] = i ++ [j] ++ [p] ++ [q] := by simp
  rw [e1, e2, CoordArr.proj_concat, CoordArr.proj_concat, CoordArr.proj_concat]
  have : proj [] i = [] := rfl
  rw [this]
  have f : ∀ a b : ℕ, a < b → (if b = 1 then 0 else a) = a := by
    intro a b h
    split_ifs <;> omega
  rw [f _ _ hj, f _ _ hp, f _ _ hq]
  rfl

/-- **C82, `synth_rotate_gauss` as documented**: frequencies and spectrum of shape `(k, m, n)`, times of any shape: one matrix of shape `(m, n)` for every time, that
of this time alone (C44, C63). -/
theorem C82_synth (time frequency : Arr ℝ) (spectrum : Arr ℂ) (scaled : Scaled) (k m n : ℕ) (hf : frequency.shape = [k, m, n]) (hs : spectrum.shape = [k, m, n]) :
    ∃ b, synthRotateGauss time frequency spectrum scaled = .ok b ∧ b.shape = time.shape ++ [m, n] ∧
      ∀ i, Valid time.shape i → ∀ p q, p < m → q < n → b.get (i ++ [p, q]) =
        synthRotate k (fun j p q => frequency.get [j, p, q]) (fun j p q => spectrum.get [j, p, q]) scaled (time.get i) p q := by
  obtain ⟨-, h⟩ := C82_synth_shapes time frequency spectrum scaled
  rw [hf, hs] at h
  obtain ⟨L, k', m', n', b, hG, hb, hsh, hv⟩ := h _ (broadcast_cube time.shape k m n)
  obtain ⟨rfl, h3⟩ := List.append_inj' hG rfl
  injection h3 with h4 h5
  injection h5 with h5 h6
  injection h6 with h6 _
  subst h4 h5 h6
  refine ⟨b, hb, hsh, fun i hi p q hp hq => ?_⟩
  rw [hv i hi p q hp hq]
  unfold synthRotate
  congr 1
  apply Finset.sum_congr rfl
  intro j hj
  rw [Finset.mem_range] at hj
  rw [at_cube spectrum _ _ _ hs i j p q hj hp hq, at_cube frequency _ _ _ hf i j p q hj hp hq, at_valid time i hi]

theorem broadcast_vector (T : List ℕ) (k m n c : ℕ) (hn : n = 1 ∨ n = c) (hk : k = 1 ∨ k = c) (hc : c = n ∨ c = k) :
    broadcast [[k, m, n], [k], T ++ [1, 1, 1]] = some (T ++ [k, m, c]) := by
  rw [broadcast_iff]
  have hfront : Into [k, m, c] (T ++ [k, m, c]) := into_front T _
  constructor
  · intro s hs
    simp only [List.mem_cons, List.not_mem_nil, or_false] at hs
    rcases hs with rfl | rfl | rfl
    · unfold Into at hfront ⊢
      simp only [List.reverse_append, List.reverse_cons, List.reverse_nil, List.nil_append, List.cons_append] at hfront ⊢
      exact ⟨hn, hfront.2⟩
    · unfold Into
      simp only [List.reverse_append, List.reverse_cons, List.reverse_nil, List.nil_append, List.cons_append]
      exact ⟨hk, trivial⟩
    · exact into_append3 k m c
  · intro X hX
    have h1 := hX [k, m, n] (by simp)
    have h2 := hX (T ++ [1, 1, 1]) (by simp)
    have h3 := hX [k] (by simp)
    obtain ⟨L, a, b, d, rfl, hL⟩ := into_last3 h2
    unfold Into at h1 h3 hL ⊢
    simp only [List.reverse_append, List.reverse_cons, List.reverse_nil, List.nil_append, List.cons_append] at h1 h3 ⊢
    refine ⟨?_, h1.2.1, h1.2.2.1, hL⟩
    rcases hc with rfl | rfl
    · exact h1.1
    · exact h3.1

theorem at_vector {α : Type} (a : Arr α) (k : ℕ) (h : a.shape = [k]) (i : List ℕ) (j p q : ℕ) : a.at (i ++ [j, p, q]) = a.get [if k = 1 then 0 else q] := by
  unfold Arr.at
  congr 1
  rw [h]
  have e1 : ([k] : List ℕ) = [] ++ [k] := rfl
  have e2 : i ++ [j, p, q] = (i ++ [j, p]) ++ [q] := by simp
  rw [e1, e2, CoordArr.proj_concat]
  rfl

theorem at_cube' {α : Type} (a : Arr α) (k m n : ℕ) (h : a.shape = [k, m, n]) (i : List ℕ) (j p q : ℕ) (hj : j < k) (hp : p < m) :
    a.at (i ++ [j, p, q]) = a.get [j, p, if n = 1 then 0 else q] := by
  unfold Arr.at
  congr 1
  rw [h]
  have e1 : ([k, m, n] : List ℕ) = [] ++ [k] ++ [m] ++ [n] := rfl
  have e2 : i ++ [j, p, q] = i ++ [j] ++ [p] ++ [q] := by simp
  rw [e1, e2, CoordArr.proj_concat, CoordArr.proj_concat, CoordArr.proj_concat]
  have : proj [] i = [] := rfl
  rw [this]
  have f : ∀ a b : ℕ, a < b → (if b = 1 then 0 else a) = a := by
    intro a b h
    split_ifs <;> omega
  rw [f _ _ hj, f _ _ hp]
  rfl

/-- **C82, frequencies as a vector** (documented, finding): frequencies of shape `(k,)` with a spectrum of shape `(k, m, n)` are accepted only if `k = n` or one of them
is 1, and then run along the last axis of the matrices instead of the terms of the Fourier sum (C44). -/
theorem C82_vector (time frequency : Arr ℝ) (spectrum : Arr ℂ) (scaled : Scaled) (k m n : ℕ) (hf : frequency.shape = [k]) (hs : spectrum.shape = [k, m, n]) :
    ((∃ b, synthRotateGauss time frequency spectrum scaled = .ok b) ↔ k = n ∨ k = 1 ∨ n = 1) ∧
    ∀ b, synthRotateGauss time frequency spectrum scaled = .ok b → ∃ c, b.shape = time.shape ++ [m, c] ∧ ∀ i, Valid time.shape i →
      ∃ r, synthRotateVec k n (fun j => frequency.get [j]) (fun j p q => spectrum.get [j, p, q]) scaled (time.get i) = .ok (c, r) ∧
        ∀ p q, p < m → q < c → b.get (i ++ [p, q]) = r p q := by
  obtain ⟨h0, h⟩ := C82_synth_shapes time frequency spectrum scaled
  rw [hf, hs] at h h0
  have hok : ∀ c, (n = 1 ∨ n = c) → (k = 1 ∨ k = c) → (c = n ∨ c = k) → ∃ b, synthRotateGauss time frequency spectrum scaled = .ok b ∧ b.shape = time.shape ++ [m, c] ∧
      ∀ i, Valid time.shape i → ∀ p q, p < m → q < c → b.get (i ++ [p, q]) =
        (∑ j ∈ Finset.range k, spectrum.get [j, p, if n = 1 then 0 else q] * harmonic scaled (frequency.get [if k = 1 then 0 else q]) (time.get i)).re := by
    intro c hn hk hc
    obtain ⟨L, k', m', n', b, hG, hb, hsh, hv⟩ := h _ (broadcast_vector time.shape k m n c hn hk hc)
    obtain ⟨rfl, h3⟩ := List.append_inj' hG rfl
    injection h3 with h4 h5
    injection h5 with h5 h6
    injection h6 with h6 _
    subst h4 h5 h6
    refine ⟨b, hb, hsh, fun i hi p q hp hq => ?_⟩
    rw [hv i hi p q hp hq]
    congr 1
    apply Finset.sum_congr rfl
    intro j hj
    rw [Finset.mem_range] at hj
    rw [at_cube' spectrum _ _ _ hs i j p q hj hp, at_vector frequency _ hf i j p q, at_valid time i hi]
  have hfind : k = n ∨ k = 1 ∨ n = 1 → ∃ c, (n = 1 ∨ n = c) ∧ (k = 1 ∨ k = c) ∧ (c = n ∨ c = k) := by
    rintro (h | h | h)
    · exact ⟨n, .inr rfl, .inr h, .inl rfl⟩
    · exact ⟨n, .inr rfl, .inl h, .inl rfl⟩
    · exact ⟨k, .inl h, .inr rfl, .inr rfl⟩
  have hback : (∃ b, synthRotateGauss time frequency spectrum scaled = .ok b) → k = n ∨ k = 1 ∨ n = 1 := by
    rintro ⟨b, hb⟩
    cases hG : broadcast [[k, m, n], [k], time.shape ++ [1, 1, 1]] with
    | none =>
      rw [h0 hG] at hb
      cases hb
    | some G =>
      have h1 := broadcast_into hG [k, m, n] (by simp)
      have h2 := broadcast_into hG [k] (by simp)
      obtain ⟨L, a, b, d, rfl, -⟩ := into_last3 (broadcast_into hG (time.shape ++ [1, 1, 1]) (by simp))
      unfold Into at h1 h2
      simp only [List.reverse_append, List.reverse_cons, List.reverse_nil, List.nil_append, List.cons_append] at h1 h2
      rcases h1.1 with h1 | h1
      · exact .inr (.inr h1)
      · rcases h2.1 with h2 | h2
        · exact .inr (.inl h2)
        · exact .inl (h2.trans h1.symm)
  refine ⟨⟨hback, fun hc => ?_⟩, fun b hb => ?_⟩
  · obtain ⟨c, c1, c2, c3⟩ := hfind hc
    obtain ⟨b, hb, -⟩ := hok c c1 c2 c3
    exact ⟨b, hb⟩
  · have hc := hback ⟨b, hb⟩
    unfold synthRotateVec
    by_cases e1 : k = n
    · obtain ⟨b', hb', h2, h3⟩ := hok n (.inr rfl) (.inr e1) (.inl rfl)
      rw [hb] at hb'
      injection hb' with hb'
      subst hb'
      refine ⟨n, h2, fun i hi => ⟨_, by rw [if_pos e1], fun p q hp hq => ?_⟩⟩
      rw [h3 i hi p q hp hq]
      have z : ∀ x : ℕ, (x = n) → (if x = 1 then 0 else q) = q := by
        intro x hx
        split_ifs <;> omega
      rw [z n rfl, z k e1]
    · by_cases e2 : k = 1
      · obtain ⟨b', hb', h2, h3⟩ := hok n (.inr rfl) (.inl e2) (.inl rfl)
        rw [hb] at hb'
        injection hb' with hb'
        subst hb'
        refine ⟨n, h2, fun i hi => ⟨_, by rw [if_neg e1, if_pos e2], fun p q hp hq => ?_⟩⟩
        rw [h3 i hi p q hp hq, if_pos e2]
        have z : (if n = 1 then 0 else q) = q := by split_ifs <;> omega
        rw [z]
      · have e3 : n = 1 := by
          rcases hc with h | h | h
          · exact absurd h e1
          · exact absurd h e2
          · exact h
        obtain ⟨b', hb', h2, h3⟩ := hok k (.inl e3) (.inr rfl) (.inr rfl)
        rw [hb] at hb'
        injection hb' with hb'
        subst hb'
        refine ⟨k, h2, fun i hi => ⟨_, by rw [if_neg e1, if_neg e2, if_pos e3], fun p q hp hq => ?_⟩⟩
        rw [h3 i hi p q hp hq, if_pos e3, if_neg e2]

/-! ### Rotation matrices -/

/-- The base vectors at one time: the first three components. -/
def baseAt (b1 b2 b3 : Arr ℝ) (i : List ℕ) : Coord.Base := ⟨fun k => b1.get (i ++ [k.val]), fun k => b2.get (i ++ [k.val]), fun k => b3.get (i ++ [k.val])⟩

theorem vecAt_ok (b : Arr ℝ) (L : List ℕ) (d : ℕ) (h : b.shape = L ++ [d]) (h3 : 3 ≤ d) (i : List ℕ) : vecAt b i = .ok fun k => b.get (i ++ [k.val]) := by
  unfold vecAt
  rw [h, List.getLast?_concat]
  simp only
  rw [if_neg (by omega)]

theorem matrixAt_ok (leggauss : ℕ → List (ℝ × ℝ)) (nmax kmax : ℕ) (b1 b2 b3 : Arr ℝ) (L : List ℕ) (d : ℕ) (h1 : b1.shape = L ++ [d]) (h2 : b2.shape = L ++ [d])
    (h3 : b3.shape = L ++ [d]) (hd : 3 ≤ d) (i : List ℕ) :
    matrixAt leggauss nmax kmax b1 b2 b3 i = Analysis.rotateGauss leggauss nmax kmax (baseAt b1 b2 b3 i) := by
  unfold matrixAt
  rw [vecAt_ok b1 L d h1 hd, vecAt_ok b2 L d h2 hd, vecAt_ok b3 L d h3 hd]
  rfl

theorem tables_ok (rule : List (ℝ × ℝ)) (nmax : ℕ) (hn : 1 ≤ nmax) :
    ∃ Ts, (rule.mapM fun q => Analysis.lift (Legendre.legendrePoly nmax (Analysis.colat q.1))) = .ok Ts := by
  induction rule with
  | nil => exact ⟨[], rfl⟩
  | cons q rule ih =>
    obtain ⟨Ts, h⟩ := ih
    rw [List.mapM_cons, Legendre.legendrePoly_ok nmax _ hn, h]
    exact ⟨_, rfl⟩

theorem mapM_all {α β ε : Type} (f : α → Except ε β) (l : List α) (h : ∀ a ∈ l, ∃ b, f a = .ok b) : ∃ l', l.mapM f = .ok l' := by
  induction l with
  | nil => exact ⟨[], rfl⟩
  | cons a l ih =>
    obtain ⟨b, hb⟩ := h a List.mem_cons_self
    obtain ⟨l', hl⟩ := ih fun a ha => h a (List.mem_cons_of_mem _ ha)
    rw [List.mapM_cons, hb, hl]
    exact ⟨_, rfl⟩

/-- **C82, `rotate_gauss` for arrays of base vectors**: with base vectors of shape `(..., d)`, `d ≥ 3` (components after the third are ignored), the result has the shape
`(..., nmax (nmax + 2), kmax (kmax + 2))`, and the matrix at every index is that of the base vectors at this index alone (C57: it transforms the expansion). -/
theorem C82_rotate (leggauss : ℕ → List (ℝ × ℝ)) (nmax kmax : ℕ) (hn : 1 ≤ nmax) (hk : 1 ≤ kmax)
    (hrule : GaussRule ((nmax + kmax + 1) / 2 + 1) (leggauss ((nmax + kmax + 1) / 2 + 1))) (b1 b2 b3 : Arr ℝ) (L : List ℕ) (d : ℕ) (hd : 3 ≤ d)
    (h1 : b1.shape = L ++ [d]) (h2 : b2.shape = L ++ [d]) (h3 : b3.shape = L ++ [d])
    (hb : ∀ i, Valid L i → RightHanded (baseAt b1 b2 b3 i).e1 (baseAt b1 b2 b3 i).e2 (baseAt b1 b2 b3 i).e3) :
    ∃ b, rotateGauss leggauss nmax kmax b1 b2 b3 = .ok b ∧ b.shape = L ++ [nmax * (nmax + 2), kmax * (kmax + 2)] ∧
      ∀ i, Valid L i → ∃ M, Analysis.rotateGauss leggauss nmax kmax (baseAt b1 b2 b3 i) = .ok M ∧ M.length = kmax * (kmax + 2) ∧
        (∀ col ∈ M, col.length = nmax * (nmax + 2)) ∧ ∀ p q, b.get (i ++ [p, q]) = (M.getD q []).getD p 0 := by
  unfold rotateGauss
  rw [if_pos ⟨h1.trans h2.symm, h1.trans h3.symm⟩]
  have hL : b1.shape.dropLast = L := by rw [h1, List.dropLast_concat]
  obtain ⟨Ts, hT⟩ := tables_ok (leggauss ((nmax + kmax + 1) / 2 + 1)) nmax hn
  obtain ⟨ms, hm⟩ := mapM_all (matrixAt leggauss nmax kmax b1 b2 b3) (indices L) (fun i hi => by
    rw [matrixAt_ok leggauss nmax kmax b1 b2 b3 L d h1 h2 h3 hd]
    obtain ⟨M, hM, -⟩ := Analysis.C57_shape (leggauss := leggauss) (b := baseAt b1 b2 b3 i) hn hk hrule (hb i (mem_indices.1 hi))
    exact ⟨M, hM⟩)
  simp only [hT, hL, hm, bind, Except.bind]
  refine ⟨_, rfl, ?_, fun i hi => ?_⟩
  · show L ++ [nmax ^ 2 + 2 * nmax, kmax ^ 2 + 2 * kmax] = _
    congr 2
    · ring
    · congr 1
      ring
  · obtain ⟨M, hM, hM2, hM3⟩ := Analysis.C57_shape (leggauss := leggauss) (b := baseAt b1 b2 b3 i) hn hk hrule (hb i hi)
    refine ⟨M, hM, hM2, hM3, fun p q => ?_⟩
    have hlen : i.length = L.length := hi.length_eq
    have ht : (i ++ [p, q]).take L.length = i := List.take_left' hlen
    have hg : ms.getD ((indices L).idxOf i) [] = M := by
      have hf := (Synth.mapM_ok _ _ _).1 hm
      have hlt : (indices L).idxOf i < (indices L).length := List.idxOf_lt_length_of_mem (mem_indices.2 hi)
      have hlt2 : (indices L).idxOf i < ms.length := by rw [← hf.length_eq]; exact hlt
      have := List.Forall₂.get hf hlt hlt2
      rw [List.get_eq_getElem, List.get_eq_getElem, List.getElem_idxOf, matrixAt_ok leggauss nmax kmax b1 b2 b3 L d h1 h2 h3 hd, hM] at this
      rw [List.getD_eq_getElem _ _ hlt2]
      exact (Except.ok.inj this).symm
    show ((ms.getD ((indices L).idxOf ((i ++ [p, q]).take L.length)) []).getD ((i ++ [p, q]).getLastD 0) []).getD ((i ++ [p, q]).dropLast.getLastD 0) 0 = _
    rw [ht, hg]
    have e1 : (i ++ [p, q]).getLastD 0 = q := by
      rw [show i ++ [p, q] = (i ++ [p]) ++ [q] by simp, List.getLastD_concat]
    have e2 : (i ++ [p, q]).dropLast.getLastD 0 = p := by
      rw [show i ++ [p, q] = (i ++ [p]) ++ [q] by simp, List.dropLast_concat, List.getLastD_concat]
    rw [e1, e2]

/-- **C82, shapes of the base vectors**: they must be equal (AssertionError; they are not broadcast). -/
theorem C82_rotate_shapes (leggauss : ℕ → List (ℝ × ℝ)) (nmax kmax : ℕ) (b1 b2 b3 : Arr ℝ) (h : ¬ (b1.shape = b2.shape ∧ b2.shape = b3.shape)) :
    rotateGauss leggauss nmax kmax b1 b2 b3 = .error .assertionError := by
  unfold rotateGauss
  rw [if_neg]
  rintro ⟨h1, h2⟩
  exact h ⟨h1, h1.symm.trans h2⟩

/-- **C82, too few components**: base vectors with fewer than three components raise IndexError as soon as there is one time. -/
theorem C82_rotate_short (leggauss : ℕ → List (ℝ × ℝ)) (nmax kmax : ℕ) (hn : 1 ≤ nmax) (b1 b2 b3 : Arr ℝ) (L : List ℕ) (d : ℕ) (hd : d < 3) (h0 : 0 ∉ L)
    (h1 : b1.shape = L ++ [d]) (h2 : b2.shape = L ++ [d]) (h3 : b3.shape = L ++ [d]) : rotateGauss leggauss nmax kmax b1 b2 b3 = .error .indexError := by
  unfold rotateGauss
  rw [if_pos ⟨h1.trans h2.symm, h1.trans h3.symm⟩]
  have hL : b1.shape.dropLast = L := by rw [h1, List.dropLast_concat]
  obtain ⟨Ts, hT⟩ := tables_ok (leggauss ((nmax + kmax + 1) / 2 + 1)) nmax hn
  have hm : ∀ i, matrixAt leggauss nmax kmax b1 b2 b3 i = .error .indexError := by
    intro i
    have : vecAt b1 i = .error .indexError := by
      unfold vecAt
      rw [h1, List.getLast?_concat]
      simp only
      rw [if_pos hd]
    unfold matrixAt
    rw [this]
    rfl
  have hms : (indices L).mapM (matrixAt leggauss nmax kmax b1 b2 b3) = .error .indexError := by
    obtain ⟨i, l, hl⟩ := List.exists_cons_of_ne_nil (indices_ne_nil h0)
    rw [hl, List.mapM_cons, hm]
    rfl
  simp only [hT, hL, hms, bind, Except.bind]

end ChaosMagPy.RotateArr
