import Verif.Props.CoordArrVec
/-!
# C77: which arrays are refused
-/
namespace ChaosMagPy.CoordArr
open ChaosMagPy.Synth (Error)
open ChaosMagPy.NumPy
open ChaosMagPy.Coord (Vec)

/-- The expression raises no other exception than ValueError, and shapes `src` fit into the shape of a result. -/
def Sound (src : List (List ℕ)) (x : NE) : Prop :=
  (∀ e, x.run = .error e → e = .valueError) ∧ ∀ a, x.run = .ok a → ∀ s ∈ src, Into s a.shape

theorem sound_op2 {s t : List (List ℕ)} {x y : NE} (f : Num → Num → Num) (hx : Sound s x) (hy : Sound t y) : Sound (s ++ t) ⟨lift2 f x.run y.run⟩ := by
  constructor
  · intro e he
    simp only at he
    cases h1 : x.run with
    | error e1 => rw [h1] at he; cases he; exact hx.1 _ h1
    | ok a =>
      cases h2 : y.run with
      | error e2 => rw [h1, h2] at he; cases he; exact hy.1 _ h2
      | ok b =>
        rw [h1, h2] at he
        simp only [lift2, map2] at he
        cases hb : bcast a.shape b.shape with
        | none => rw [hb] at he; cases he; rfl
        | some r => rw [hb] at he; cases he
  · intro c hc r hr
    simp only at hc
    cases h1 : x.run with
    | error e1 => rw [h1] at hc; cases hc
    | ok a =>
      cases h2 : y.run with
      | error e2 => rw [h1, h2] at hc; cases hc
      | ok b =>
        rw [h1, h2] at hc
        simp only [lift2, map2] at hc
        cases hb : bcast a.shape b.shape with
        | none => rw [hb] at hc; cases hc
        | some q =>
          rw [hb] at hc
          cases hc
          rcases List.mem_append.1 hr with h | h
          · exact into_trans (hx.2 a h1 r h) (bcast_into hb).1
          · exact into_trans (hy.2 b h2 r h) (bcast_into hb).2

theorem Sound.mul {s t : List (List ℕ)} {x y : NE} (hx : Sound s x) (hy : Sound t y) : Sound (s ++ t) (x * y) := sound_op2 _ hx hy
theorem Sound.add {s t : List (List ℕ)} {x y : NE} (hx : Sound s x) (hy : Sound t y) : Sound (s ++ t) (x + y) := sound_op2 _ hx hy
theorem Sound.atan2 {s t : List (List ℕ)} {x y : NE} (hx : Sound s x) (hy : Sound t y) : Sound (s ++ t) (atan2 x y) := sound_op2 _ hx hy

theorem Sound.app {s : List (List ℕ)} {x : NE} (f : ℝ → ℝ) (hx : Sound s x) : Sound s (NE.app f x) := by
  constructor
  · intro e he
    unfold NE.app at he
    cases h1 : x.run with
    | error e1 => simp only [h1] at he; cases he; exact hx.1 _ h1
    | ok a => simp only [h1] at he; cases he
  · intro c hc
    unfold NE.app at hc
    cases h1 : x.run with
    | error e1 => simp only [h1] at hc; cases hc
    | ok a => simp only [h1] at hc; cases hc; exact hx.2 a h1

theorem Sound.arr (a : Arr Num) : Sound [a.shape] (ne a) := by
  constructor
  · intro e he; cases he
  · intro c hc
    cases hc
    intro s hs
    rw [List.mem_singleton.1 hs]
    exact into_refl _

theorem Sound.vec {L : List ℕ} {a : Arr Num} {u : List ℕ → Fin 3 → Num} (h : VecIs L a u) (k : Fin 3) : Sound [L] (comp a k.val) := by
  obtain ⟨c, h1, h2, -⟩ := h.comp k
  constructor
  · intro e he; rw [h1] at he; cases he
  · intro b hb
    rw [h1] at hb
    cases hb
    intro s hs
    rw [List.mem_singleton.1 hs, h2]
    exact into_refl _

/-- `geo_to_base` raises only ValueError, and succeeds only for shapes that fit together. -/
theorem geo_sound (theta phi : Arr Num) (b : Base) (inverse : Bool) {M1 M2 M3 : List ℕ} {u1 u2 u3 : List ℕ → Fin 3 → Num} (h1 : VecIs M1 b.e1 u1)
    (h2 : VecIs M2 b.e2 u2) (h3 : VecIs M3 b.e3 u3) :
    (∀ e, geoToBase theta phi b inverse = .error e → e = .valueError) ∧
    ∀ th ph, geoToBase theta phi b inverse = .ok (th, ph) → Into theta.shape th.shape ∧ Into phi.shape th.shape ∧ Into M2 th.shape := by
  have N := Sound.arr (scalar (some 1))
  have T := Sound.arr theta
  have P := Sound.arr phi
  have X := (N.mul ((P.app Coord.radians).app Real.cos)).mul ((T.app Coord.radians).app Real.sin)
  have Y := (N.mul ((P.app Coord.radians).app Real.sin)).mul ((T.app Coord.radians).app Real.sin)
  have Z := N.mul ((T.app Coord.radians).app Real.cos)
  have A := Sound.vec h1
  have B := Sound.vec h2
  have C := Sound.vec h3
  have key : ∀ (x y : NE) (l l' : List (List ℕ)), Sound l x → Sound l' y → theta.shape ∈ l → phi.shape ∈ l → M2 ∈ l →
      (∀ e, (do let a ← x.run; let b ← y.run; return (a, b) : Except Error (Arr Num × Arr Num)) = .error e → e = .valueError) ∧
      ∀ th ph, (do let a ← x.run; let b ← y.run; return (a, b) : Except Error (Arr Num × Arr Num)) = .ok (th, ph) →
        Into theta.shape th.shape ∧ Into phi.shape th.shape ∧ Into M2 th.shape := by
    intro x y l l' hx hy m1 m2 m3
    cases hxr : x.run with
    | error e1 =>
      refine ⟨fun e he => ?_, fun th ph h => by cases h⟩
      cases he
      exact hx.1 _ hxr
    | ok a =>
      cases hyr : y.run with
      | error e1 =>
        refine ⟨fun e he => ?_, fun th ph h => by cases h⟩
        cases he
        exact hy.1 _ hyr
      | ok c =>
        refine ⟨fun e he => (by cases he), fun th ph h => ?_⟩
        cases h
        exact ⟨hx.2 _ hxr _ m1, hx.2 _ hxr _ m2, hx.2 _ hxr _ m3⟩
  cases inverse with
  | false =>
    have XX := (((A 0).mul X).add ((A 1).mul Y)).add ((A 2).mul Z)
    have YY := (((B 0).mul X).add ((B 1).mul Y)).add ((B 2).mul Z)
    have ZZ := (((C 0).mul X).add ((C 1).mul Y)).add ((C 2).mul Z)
    exact key _ _ _ _ ((((XX.app (· ^ 2)).add (YY.app (· ^ 2))).app Real.sqrt).atan2 ZZ |>.app Coord.degrees) ((YY.atan2 XX).app Coord.degrees)
      (by simp) (by simp) (by simp)
  | true =>
    have XX := (((A 0).mul X).add ((B 0).mul Y)).add ((C 0).mul Z)
    have YY := (((A 1).mul X).add ((B 1).mul Y)).add ((C 1).mul Z)
    have ZZ := (((A 2).mul X).add ((B 2).mul Y)).add ((C 2).mul Z)
    exact key _ _ _ _ ((((XX.app (· ^ 2)).add (YY.app (· ^ 2))).app Real.sqrt).atan2 ZZ |>.app Coord.degrees) ((YY.atan2 XX).app Coord.degrees)
      (by simp) (by simp) (by simp)

/-- `basevectors_use` raises only ValueError. -/
theorem use_sound (theta phi : Arr Num) : ∀ e, baseUse theta phi = .error e → e = .valueError := by
  intro e he
  by_cases hc : useCheck theta = true
  · cases hb : bcast theta.shape phi.shape with
    | none =>
      unfold baseUse at he
      rw [hc, hb] at he
      cases he
      rfl
    | some s =>
      obtain ⟨u, _, _, _, h, -⟩ := use_vec theta phi s hb hc
      rw [h] at he
      cases he
  · unfold baseUse at he
    rw [Bool.not_eq_true] at hc
    rw [hc] at he
    cases he
    rfl

theorem stackLast_sound (l : List (Arr Num)) : ∀ e, stackLast l = .error e → e = .valueError := by
  intro e he
  unfold stackLast at he
  cases l with
  | nil => cases he; rfl
  | cons a l =>
    simp only at he
    split_ifs at he
    cases he
    rfl

/-- Both functions fail if the base vectors cannot be computed. -/
theorem both_error (config : ℝ × ℝ × ℝ) (theta phi Btheta Bphi time : Arr ℝ) (reference : String) (inverse : Bool) (d : Dipole) (e : Error)
    (h : referenceBase config reference d time = .error e) :
    transformPoints config theta phi time reference inverse d = .error e ∧
    transformVectors config theta phi Btheta Bphi time reference inverse d = .error e := by
  unfold transformPoints transformVectors
  rw [h]
  exact ⟨rfl, rfl⟩

/-- **C77** (unknown system). Any other name of the reference system raises ValueError. -/
theorem C77_unknown (config : ℝ × ℝ × ℝ) (theta phi Btheta Bphi time : Arr ℝ) (reference : String) (inverse : Bool) (d : Dipole)
    (h : reference ∉ ["gsm", "sm", "mag"]) :
    transformPoints config theta phi time reference inverse d = .error .valueError ∧
    transformVectors config theta phi Btheta Bphi time reference inverse d = .error .valueError := by
  simp only [List.mem_cons, List.not_mem_nil, or_false, not_or] at h
  apply both_error
  unfold referenceBase
  rw [if_neg h.1, if_neg h.2.1, if_neg h.2.2]

theorem sun_error (time : Arr ℝ) (i : List ℕ) (hi : Valid time.shape i) (h : 36159.75 ≤ time.get i) : sunVectors time = .error .assertionError := by
  have : ¬ Coord.sunCheck time.data = true := by
    rw [sunCheck_iff]
    intro hh
    exact absurd (hh _ (List.mem_map.2 ⟨i, mem_indices.2 hi, rfl⟩)) (not_lt.2 h)
  unfold sunVectors sunPosition
  rw [if_neg this]
  rfl

/-- **C77** (times). One time from the year 2099 on makes the whole call with GSM or SM raise AssertionError; for MAG the times are ignored. -/
theorem C77_times (config : ℝ × ℝ × ℝ) (theta phi Btheta Bphi time : Arr ℝ) (inverse : Bool) (d : Dipole) (L : List ℕ) (hd : DipoleShape d L) :
    (∀ reference, reference = "gsm" ∨ reference = "sm" → ∀ i, Valid time.shape i → 36159.75 ≤ time.get i →
      transformPoints config theta phi time reference inverse d = .error .assertionError ∧
      transformVectors config theta phi Btheta Bphi time reference inverse d = .error .assertionError) ∧
    ∀ time', transformPoints config theta phi time "mag" inverse d = transformPoints config theta phi time' "mag" inverse d ∧
      transformVectors config theta phi Btheta Bphi time "mag" inverse d = transformVectors config theta phi Btheta Bphi time' "mag" inverse d := by
  obtain ⟨v, o, v1, -, -⟩ := dipole_vec config d L hd
  refine ⟨?_, fun time' => ⟨rfl, rfl⟩⟩
  intro reference hr i hi ht
  apply both_error
  have hs := sun_error time i hi ht
  rcases hr with rfl | rfl
  · unfold referenceBase baseGsm
    rw [if_pos rfl, v1, hs]
    rfl
  · unfold referenceBase baseSm
    rw [if_neg (by decide), if_pos rfl, v1, hs]
    rfl

theorem reference_dipole_error (config : ℝ × ℝ × ℝ) (reference : String) (d : Dipole) (time : Arr ℝ) (h : dipoleToVec config d = .error .valueError) :
    referenceBase config reference d time = .error .valueError := by
  unfold referenceBase
  by_cases h1 : reference = "gsm"
  · rw [if_pos h1]; unfold baseGsm; rw [h]; rfl
  · rw [if_neg h1]
    by_cases h2 : reference = "sm"
    · rw [if_pos h2]; unfold baseSm; rw [h]; rfl
    · rw [if_neg h2]
      by_cases h3 : reference = "mag"
      · rw [if_pos h3]; unfold baseMag; rw [h]; rfl
      · rw [if_neg h3]

theorem stackLast_error {a b c : Arr Num} (h : ¬ (b.shape = a.shape ∧ c.shape = a.shape)) : stackLast [a, b, c] = .error .valueError := by
  unfold stackLast
  simp only
  rw [if_neg]
  intro hh
  exact h ⟨hh b (by simp), hh c (by simp)⟩

/-- **C77** (dipoles). Although documented as arrays that broadcast: the longitude of the pole must fit into the shape of the colatitude, and
three arrays of coefficients must have the same shape; otherwise, and for other numbers of arrays, every call raises ValueError. -/
theorem C77_dipoles (config : ℝ × ℝ × ℝ) (theta phi Btheta Bphi time : Arr ℝ) (reference : String) (inverse : Bool) (args : List (Arr ℝ))
    (h : (∃ a b, args = [a, b] ∧ bcast a.shape b.shape ≠ some a.shape) ∨ (∃ a b c, args = [a, b, c] ∧ ¬ (b.shape = a.shape ∧ c.shape = a.shape)) ∨
      args = [] ∨ 4 ≤ args.length) :
    transformPoints config theta phi time reference inverse (.tuple args) = .error .valueError ∧
    transformVectors config theta phi Btheta Bphi time reference inverse (.tuple args) = .error .valueError := by
  apply both_error
  apply reference_dipole_error
  show dipoleToUnit args = _
  rcases h with ⟨a, b, rfl, hab⟩ | ⟨a, b, c, rfl, habc⟩ | rfl | h4
  · have T := (Sound.arr (ofReal a)).app Coord.radians
    have P := (Sound.arr (ofReal b)).app Coord.radians
    have XX := (T.app Real.sin).mul (P.app Real.cos)
    have YY := (T.app Real.sin).mul (P.app Real.sin)
    unfold dipoleToUnit
    simp only [bind, Except.bind]
    cases hx : (NE.app Real.sin (NE.app Coord.radians (ne (ofReal a))) * NE.app Real.cos (NE.app Coord.radians (ne (ofReal b)))).run with
    | error e => rw [XX.1 e hx]
    | ok x =>
      cases hy : (NE.app Real.sin (NE.app Coord.radians (ne (ofReal a))) * NE.app Real.sin (NE.app Coord.radians (ne (ofReal b)))).run with
      | error e => rw [YY.1 e hy]
      | ok y =>
        simp only
        have hz : (NE.app Real.cos (NE.app Coord.radians (ne (ofReal a)))).run = .ok ((ofReal a).map fun v => (v.map Coord.radians).map Real.cos) := rfl
        rw [hz]
        simp only
        apply stackLast_error
        rintro ⟨-, hzs⟩
        have hi := XX.2 x hx b.shape (by simp [ofReal, Arr.map])
        have hxs : x.shape = a.shape := hzs.symm
        rw [hxs] at hi
        exact hab (bcast_self hi)
  · unfold dipoleToUnit
    simp only [bind, Except.bind]
    rw [stackLast_error]
    rintro ⟨h1, h2⟩
    exact habc ⟨(h2.symm : b.shape = a.shape), (h1.trans h2.symm : c.shape = a.shape)⟩
  · rfl
  · match args, h4 with
    | a :: b :: c :: e :: l, _ => rfl

/-- **C77** (shapes). Arrays that do not fit together raise ValueError: dipoles and times with GSM that do not broadcast, dipoles with SM that
do not fit into the shape of the times, points that do not fit to the base vectors. -/
theorem C77_shapes (config : ℝ × ℝ × ℝ) (theta phi Btheta Bphi time : Arr ℝ) (reference : String) (inverse : Bool) (d : Dipole) (L : List ℕ)
    (hd : DipoleShape d L) (ht : reference ≠ "mag" → ∀ i, Valid time.shape i → time.get i < 36159.75)
    (h : reference = "gsm" ∧ bcast L time.shape = none ∨ reference = "sm" ∧ bcast time.shape L ≠ some time.shape ∨
      ∃ M, RefShape reference L time.shape M ∧ broadcast [theta.shape, phi.shape, M] = none) :
    transformPoints config theta phi time reference inverse d = .error .valueError ∧
    transformVectors config theta phi Btheta Bphi time reference inverse d = .error .valueError := by
  obtain ⟨v, o, v1, v2, -⟩ := dipole_vec config d L hd
  rcases h with ⟨rfl, hb⟩ | ⟨rfl, hb⟩ | ⟨M, hM, hb⟩
  · obtain ⟨s, s1, s2⟩ := sun_vec time (sunCheck_arr time (ht (by decide)))
    apply both_error
    unfold referenceBase baseGsm
    rw [if_pos rfl, v1, s1]
    simp only [bind, Except.bind]
    rw [cross_error v2 s2 hb]
  · obtain ⟨s, s1, s2⟩ := sun_vec time (sunCheck_arr time (ht (by decide)))
    apply both_error
    obtain ⟨x, x1, x2, x3⟩ := v2.comp 0
    obtain ⟨y, y1, y2, y3⟩ := v2.comp 1
    obtain ⟨z, z1, z2, z3⟩ := v2.comp 2
    have x1' : (comp v 0).run = _ := x1
    have y1' : (comp v 1).run = _ := y1
    have z1' : (comp v 2).run = _ := z1
    unfold referenceBase baseSm
    rw [if_neg (by decide), if_pos rfl, v1, s1]
    simp only [bind, Except.bind, x1', y1', z1']
    have e := setComp_error (L := time.shape) (a := empty (time.shape ++ [3])) (x := x) 0 rfl (by rw [x2]; exact fun hh => hb (bcast_self hh))
    have e' : setComp (empty (time.shape ++ [3])) 0 x = _ := e
    rw [e']
  · obtain ⟨b, ob, M1, h1, h2, -, -, ⟨u1, u2, u3, w1, w2, w3, -⟩, -⟩ := reference_is config reference time d L M hd hM ht
    obtain ⟨g1, g2⟩ := geo_sound (ofReal theta) (ofReal phi) b inverse w1 w2 w3
    have hgeo : geoToBase (ofReal theta) (ofReal phi) b inverse = .error .valueError := by
      cases hg : geoToBase (ofReal theta) (ofReal phi) b inverse with
      | error e => rw [g1 e hg]
      | ok q =>
        obtain ⟨th, ph⟩ := q
        obtain ⟨k1, k2, k3⟩ := g2 th ph hg
        obtain ⟨r, hr, -⟩ := broadcast_of_into (l := [theta.shape, phi.shape, M]) (G := th.shape) (by
          intro s hs
          simp only [List.mem_cons, List.not_mem_nil, or_false] at hs
          rcases hs with rfl | rfl | rfl
          · exact k1
          · exact k2
          · exact k3)
        rw [hb] at hr
        cases hr
    unfold transformPoints transformVectors matrixGeoToBase
    rw [h1]
    simp only [bind, Except.bind, hgeo, and_self]

/-- A call of `transform_vectors` that meets a failing step raises ValueError whatever the earlier steps do. -/
theorem vectors_fail (config : ℝ × ℝ × ℝ) (theta phi Btheta Bphi time : Arr ℝ) (reference : String) (inverse : Bool) (d : Dipole) (b : Base)
    {M1 M2 M3 : List ℕ} {u1 u2 u3 : List ℕ → Fin 3 → Num} (w1 : VecIs M1 b.e1 u1) (w2 : VecIs M2 b.e2 u2) (w3 : VecIs M3 b.e3 u3)
    (h1 : referenceBase config reference d time = .ok b)
    (h : M2 ≠ M1 ∨ (M2 = M1 ∧ M3 = M1 ∧ useCheck (ofReal theta) = false)) :
    transformVectors config theta phi Btheta Bphi time reference inverse d = .error .valueError := by
  obtain ⟨g1, -⟩ := geo_sound (ofReal theta) (ofReal phi) b inverse w1 w2 w3
  have hmat : matrixGeoToBase (ofReal theta) (ofReal phi) b inverse = .error .valueError := by
    unfold matrixGeoToBase
    simp only [bind, Except.bind]
    cases hg : geoToBase (ofReal theta) (ofReal phi) b inverse with
    | error e => simp only; rw [g1 e hg]
    | ok q =>
      simp only
      cases hu : baseUse (if inverse = true then q else (ofReal theta, ofReal phi)).1 (if inverse = true then q else (ofReal theta, ofReal phi)).2 with
      | error e => simp only; rw [use_sound _ _ e hu]
      | ok u =>
        simp only
        cases hs : stackLast [u.e1, u.e2, u.e3] with
        | error e => simp only; rw [stackLast_sound _ e hs]
        | ok A =>
          simp only
          rcases h with hne | ⟨rfl, rfl, hc⟩
          · rw [stackBefore_error w1.1 w2.1 hne]
          · cases inverse with
            | false =>
              simp only [Bool.false_eq_true, if_false] at hu
              unfold baseUse at hu
              rw [hc] at hu
              cases hu
            | true =>
              obtain ⟨rb, hrb, -⟩ := stackBefore_mat w1 w2 w3
              rw [hrb]
              simp only
              have hm : ∀ e, matmul rb A = .error e → e = .valueError := by
                intro e he
                unfold matmul at he
                split at he
                · split_ifs at he
                  · split at he
                    · cases he; rfl
                    · cases he
                  · cases he; rfl
                · cases he; rfl
              cases hmm : matmul rb A with
              | error e => simp only; rw [hm e hmm]
              | ok W =>
                simp only [if_true]
                have : baseUse (ofReal theta) (ofReal phi) = .error .valueError := by
                  unfold baseUse
                  rw [hc]
                  rfl
                rw [this]
  unfold transformVectors
  rw [h1]
  simp only [bind, Except.bind, hmat]

/-- **C77** (GSM, many dipoles). Dipoles that broadcast with the times but do not fit into their shape: `transform_points` computes (C77_points),
`transform_vectors` raises ValueError. -/
theorem C77_gsm_dipoles (config : ℝ × ℝ × ℝ) (theta phi Btheta Bphi time : Arr ℝ) (inverse : Bool) (d : Dipole) (L M : List ℕ)
    (hd : DipoleShape d L) (hM : bcast L time.shape = some M) (hne : M ≠ time.shape) (ht : ∀ i, Valid time.shape i → time.get i < 36159.75) :
    transformVectors config theta phi Btheta Bphi time "gsm" inverse d = .error .valueError := by
  obtain ⟨b, ob, M1, h1, -, -, h2, ⟨u1, u2, u3, w1, w2, w3, -⟩, -⟩ := reference_is config "gsm" time d L M hd (.gsm L time.shape M hM) (fun _ => ht)
  rw [h2 rfl] at w1
  exact vectors_fail config theta phi Btheta Bphi time "gsm" inverse d b w1 w2 w3 h1 (Or.inl hne)

/-- **C77** (empty arrays and poles). `transform_vectors` raises ValueError if the array of colatitudes is empty (while `transform_points` returns empty
arrays), and if it holds a pole among colatitudes between 0 and 180 degrees. -/
theorem C77_refused (config : ℝ × ℝ × ℝ) (theta phi Btheta Bphi time : Arr ℝ) (reference : String) (inverse : Bool) (d : Dipole) (L M : List ℕ)
    (hd : DipoleShape d L) (hM : RefShape reference L time.shape M) (ht : reference ≠ "mag" → ∀ i, Valid time.shape i → time.get i < 36159.75)
    (h : 0 ∈ theta.shape ∨ (∀ i, Valid theta.shape i → 0 ≤ theta.get i ∧ theta.get i ≤ 180) ∧ ∃ i, Valid theta.shape i ∧ (theta.get i = 0 ∨ theta.get i = 180)) :
    transformVectors config theta phi Btheta Bphi time reference inverse d = .error .valueError := by
  obtain ⟨b, ob, M1, h1, h1a, h2, h3, ⟨u1, u2, u3, w1, w2, w3, -⟩, -⟩ := reference_is config reference time d L M hd hM ht
  have hdat : (ofReal theta).data = theta.data.map some := by
    unfold Arr.data ofReal Arr.map
    rw [List.map_map]
    rfl
  have hc : useCheck (ofReal theta) = false := by
    unfold useCheck
    rw [hdat, Coord.mapM_id_map]
    simp only
    rcases h with h0 | ⟨hr, i, hi, hp⟩
    · have : theta.data = [] := by
        unfold Arr.data
        rw [List.map_eq_nil_iff]
        by_contra hne
        obtain ⟨i, hi⟩ := List.exists_mem_of_ne_nil _ hne
        have hv := mem_indices.1 hi
        clear hi hne
        generalize theta.shape = s at h0 hv
        unfold Valid at hv
        induction hv with
        | nil => simp at h0
        | @cons k n i' s' hk _ ih =>
          rcases List.mem_cons.1 h0 with h0 | h0
          · omega
          · exact ih h0
      rw [this]
      rfl
    · have hmem : theta.get i ∈ theta.data := List.mem_map.2 ⟨i, mem_indices.2 hi, rfl⟩
      exact (Coord.C37_use_poles theta.data (List.ne_nil_of_mem hmem) (by
        intro t ht
        obtain ⟨j, hj, rfl⟩ := List.mem_map.1 ht
        exact hr j (mem_indices.1 hj))).2 ⟨_, hmem, hp⟩
  by_cases hg : M = M1
  · subst hg
    exact vectors_fail config theta phi Btheta Bphi time reference inverse d b w1 w2 w3 h1 (Or.inr ⟨rfl, rfl, hc⟩)
  · exact vectors_fail config theta phi Btheta Bphi time reference inverse d b w1 w2 w3 h1 (Or.inl hg)

end ChaosMagPy.CoordArr
