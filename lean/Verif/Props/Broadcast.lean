import Verif.Lemmas.SynthArr
import Verif.Props.ChaosField
/-!
# C61: arrays, broadcasting and the option `grid` of `synth_values`
-/
namespace ChaosMagPy.SynthArr
open ChaosMagPy.NumPy
open ChaosMagPy.Synth (Error Source)
open ChaosMagPy.Chaos (MinusGradient Pt)

/-- The vectorised call and the call with a list of points have the same outcome: the same exception, or three arrays of shape `G` whose values in
C order are the results for the points. -/
def SameOutcome (X : Except Error (Arr ℝ × Arr ℝ × Arr ℝ)) (G : List ℕ) (Y : Except Error (List (ℝ × ℝ × ℝ))) : Prop :=
  (∃ e, X = .error e ∧ Y = .error e) ∨
  ∃ B L, X = .ok B ∧ Y = .ok L ∧ B.1.shape = G ∧ B.2.1.shape = G ∧ B.2.2.shape = G ∧
    B.1.data = L.map (fun b => b.1) ∧ B.2.1.data = L.map (fun b => b.2.1) ∧ B.2.2.data = L.map (fun b => b.2.2)

theorem checkColat_congr (l l' : List ℝ) (h : ∀ t, t ∈ l ↔ t ∈ l') : Synth.checkColat l = Synth.checkColat l' := by
  have hne : l ≠ [] ↔ l' ≠ [] := by
    constructor
    · intro h1 h2
      obtain ⟨t, ht⟩ := List.exists_mem_of_ne_nil l h1
      rw [h, h2] at ht
      cases ht
    · intro h1 h2
      obtain ⟨t, ht⟩ := List.exists_mem_of_ne_nil l' h1
      rw [← h, h2] at ht
      cases ht
  have herr : ∀ (l : List ℝ) e, Synth.checkColat l = .error e → e = .valueError := by
    intro l e he
    unfold Synth.checkColat Synth.aminmax at he
    cases l with
    | nil => simp only [bind, Except.bind] at he; cases he; rfl
    | cons x xs =>
      simp only [bind, Except.bind, pure, Except.pure, throw, throwThe, MonadExceptOf.throw] at he
      split_ifs at he
      cases he; rfl
  have key : ∀ b, Synth.checkColat l = .ok b ↔ Synth.checkColat l' = .ok b := by
    intro b
    rw [Synth.checkColat_ok, Synth.checkColat_ok, hne, h 0, h 180]
    simp only [h]
  cases h1 : Synth.checkColat l with
  | ok b => exact ((key b).1 h1).symm
  | error e =>
    cases h2 : Synth.checkColat l' with
    | ok b => rw [(key b).2 h2] at h1; cases h1
    | error e' => rw [herr _ _ h1, herr _ _ h2]

theorem mem_data_at {G : List ℕ} (a : Arr ℝ) (h : Into a.shape G) (h0 : 0 ∉ G) (t : ℝ) : t ∈ a.data ↔ t ∈ (indices G).map a.at := by
  unfold Arr.data
  simp only [List.mem_map, mem_indices]
  constructor
  · rintro ⟨j, hj, rfl⟩
    obtain ⟨i, hi, hp⟩ := proj_surj h h0 hj
    exact ⟨i, hi, by unfold Arr.at; rw [hp]⟩
  · rintro ⟨i, hi, rfl⟩
    exact ⟨proj a.shape i, proj_isValid h hi, rfl⟩

theorem resolve_pos {dim : ℕ} {nmin nmax mmax : Option ℤ} {a b : ℕ} {m : ℤ} (h : Synth.resolve dim nmin nmax mmax = .ok (a, b, m)) : 1 ≤ b := by
  unfold Synth.resolve at h
  simp only [bind, Except.bind, pure, Except.pure, throw, throwThe, MonadExceptOf.throw] at h
  split_ifs at h with h1 h2
  · cases h
    omega

/-- Core of C61: after the option `grid` has been applied, for the points of any shape `H` to which the result can be broadcast. -/
theorem outcome_into (rsurf : ℝ) (coeffs radius theta theta' phi phi' : Arr ℝ) (lead : List ℕ) (d : ℕ) (hc : coeffs.shape = lead ++ [d])
    (grid : Option Bool) (hg : gridded grid theta phi = .ok (theta', phi')) (hth : ∀ t, t ∈ theta.data ↔ t ∈ theta'.data)
    (G H : List ℕ) (hG : broadcast [radius.shape, theta'.shape, phi'.shape, lead] = some G) (hH : Into G H) (h0 : 0 ∉ H)
    (nmin nmax mmax : Option ℤ) (source : Option String) :
    (∃ e, synthValues rsurf coeffs radius theta phi nmin nmax mmax source grid = .error e ∧
      Synth.synthValues rsurf d ((indices H).map (pointAt coeffs radius theta' phi')) nmin nmax mmax source = .error e) ∨
    ∃ B, synthValues rsurf coeffs radius theta phi nmin nmax mmax source grid = .ok B ∧ B.1.shape = G ∧ B.2.1.shape = G ∧ B.2.2.shape = G ∧
      Synth.synthValues rsurf d ((indices H).map (pointAt coeffs radius theta' phi')) nmin nmax mmax source =
        .ok ((indices H).map fun i => (B.1.at i, B.2.1.at i, B.2.2.at i)) := by
  have hi := broadcast_into hG
  have h1 : Into radius.shape G := hi _ (by simp)
  have h2 : Into theta'.shape G := hi _ (by simp)
  have h3 : Into phi'.shape G := hi _ (by simp)
  have h4 : Into lead G := hi _ (by simp)
  have hcol : Synth.checkColat theta.data = Synth.checkColat (((indices H).map (pointAt coeffs radius theta' phi')).map Synth.Point.theta) := by
    apply checkColat_congr
    intro t
    rw [hth, mem_data_at theta' (into_trans h2 hH) h0, List.map_map]
    rfl
  have hld : lastDim coeffs nmin = .ok d := by
    unfold lastDim
    rw [hc]
    simp
  have hdl : coeffs.shape.dropLast = lead := by rw [hc, List.dropLast_concat]
  unfold synthValues Synth.synthValues
  simp only [bind, Except.bind, hld]
  rw [hcol]
  cases hp : Synth.checkColat (((indices H).map (pointAt coeffs radius theta' phi')).map Synth.Point.theta) with
  | error e => exact Or.inl ⟨e, rfl, rfl⟩
  | ok poles =>
    simp only
    cases hr : Synth.resolve d nmin nmax mmax with
    | error e => exact Or.inl ⟨e, rfl, rfl⟩
    | ok r =>
      obtain ⟨a, b, m⟩ := r
      simp only [hg, hdl]
      have hb := resolve_pos hr
      rw [show broadcast [(radius.map fun r => r / rsurf).shape, theta'.shape, phi'.shape, lead] = some G from hG]
      simp only
      cases hs : Synth.resolveSource source with
      | error e => exact Or.inl ⟨e, rfl, rfl⟩
      | ok src =>
        simp only
        have hpt : ∀ i, pointAt coeffs radius theta' phi' i = pointAt coeffs radius theta' phi' (proj G i) := by
          intro i
          unfold pointAt
          rw [at_proj radius h1, at_proj theta' h2, at_proj phi' h3, hdl, proj_into h4]
        rcases loops_sim (G := G) (lead := lead) (d := d) rsurf coeffs radius theta' phi' src poles a b hb m hc h1 h2 h3 h4 with ⟨B, k1, k2, k3, k4, k5⟩ | ⟨k1, k2⟩
        · right
          refine ⟨B, k1, k2, k3, k4, ?_⟩
          rw [Synth.mapM_ok, List.forall₂_map_left_iff, List.forall₂_map_right_iff, List.forall₂_same]
          intro i _
          rw [hpt i, k5]
          unfold Arr.at
          rw [k2, k3, k4]
        · left
          refine ⟨.indexError, k1, ?_⟩
          apply Synth.mapM_error
          · simpa using indices_ne_nil h0
          · intro p hp
            obtain ⟨i, _, rfl⟩ := List.mem_map.1 hp
            exact k2 i

theorem data_at {G : List ℕ} (B : Arr ℝ) (h : B.shape = G) : B.data = (indices G).map B.at := by
  unfold Arr.data
  rw [h]
  apply List.map_congr_left
  intro i hi
  rw [at_valid _ _ (by rw [h]; exact mem_indices.1 hi)]

theorem same_outcome (rsurf : ℝ) (coeffs radius theta theta' phi phi' : Arr ℝ) (lead : List ℕ) (d : ℕ) (hc : coeffs.shape = lead ++ [d])
    (grid : Option Bool) (hg : gridded grid theta phi = .ok (theta', phi')) (hth : ∀ t, t ∈ theta.data ↔ t ∈ theta'.data)
    (G : List ℕ) (hG : broadcast [radius.shape, theta'.shape, phi'.shape, lead] = some G) (h0 : 0 ∉ G) (nmin nmax mmax : Option ℤ) (source : Option String) :
    SameOutcome (synthValues rsurf coeffs radius theta phi nmin nmax mmax source grid) G
      (Synth.synthValues rsurf d ((indices G).map (pointAt coeffs radius theta' phi')) nmin nmax mmax source) := by
  rcases outcome_into rsurf coeffs radius theta theta' phi phi' lead d hc grid hg hth G G hG (into_refl G) h0 nmin nmax mmax source with h | ⟨B, b1, b2, b3, b4, b5⟩
  · exact Or.inl h
  · refine Or.inr ⟨B, _, b1, b5, b2, b3, b4, ?_, ?_, ?_⟩
    · rw [data_at _ b2, List.map_map]; rfl
    · rw [data_at _ b3, List.map_map]; rfl
    · rw [data_at _ b4, List.map_map]; rfl

/-- **C61** (broadcasting). If the shapes of radius, colatitude, longitude and coefficients (without the last axis) can be broadcast to a non-empty
shape `G`, then `synth_values` has the same outcome as for the list of all points of the broadcast arrays: the result has the shape `G`, and the value
at an index is computed from the elements of the four arrays that belong to it (for all arguments, including the exceptions). -/
theorem C61_broadcast (rsurf : ℝ) (coeffs radius theta phi : Arr ℝ) (lead : List ℕ) (d : ℕ) (hc : coeffs.shape = lead ++ [d])
    (G : List ℕ) (hG : broadcast [radius.shape, theta.shape, phi.shape, lead] = some G) (h0 : 0 ∉ G) (nmin nmax mmax : Option ℤ) (source : Option String) :
    SameOutcome (synthValues rsurf coeffs radius theta phi nmin nmax mmax source none) G
      (Synth.synthValues rsurf d ((indices G).map fun i =>
        ⟨radius.at i, theta.at i, phi.at i, fun k => coeffs.get (proj lead i ++ [k])⟩) nmin nmax mmax source) := by
  have h := same_outcome rsurf coeffs radius theta theta phi phi lead d hc none rfl (fun _ => Iff.rfl) G hG h0 nmin nmax mmax source
  have : pointAt coeffs radius theta phi = fun i => (⟨radius.at i, theta.at i, phi.at i, fun k => coeffs.get (proj lead i ++ [k])⟩ : Synth.Point) := by
    funext i
    unfold pointAt
    rw [hc, List.dropLast_concat]
  rw [this] at h
  exact h

theorem proj_append_one (s i : List ℕ) (k : ℕ) : proj (s ++ [1]) (i ++ [k]) = proj s i ++ [0] := by
  unfold proj
  simp [projRev]

theorem proj_append (s i : List ℕ) (n k : ℕ) : proj (s ++ [n]) (i ++ [k]) = proj s i ++ [if n = 1 then 0 else k] := by
  unfold proj
  simp [projRev]

theorem expandLast_at (a : Arr ℝ) (i : List ℕ) (k : ℕ) : (expandLast a).at (i ++ [k]) = a.at i := by
  unfold Arr.at expandLast
  simp only
  rw [proj_append_one, List.dropLast_concat]

theorem expandBeforeLast_at (a b : Arr ℝ) (t : List ℕ) (M : ℕ) (ha : a.shape = t ++ [M]) (h : expandBeforeLast a = .ok b) :
    b.shape = t ++ [1, M] ∧ ∀ (i : List ℕ) (j k : ℕ), b.at (i ++ [j, k]) = a.at (i ++ [k]) := by
  unfold expandBeforeLast at h
  rw [ha] at h
  simp only [List.getLast?_append, List.getLast?_singleton, Option.some_or, List.dropLast_concat] at h
  cases h
  refine ⟨rfl, fun i j k => ?_⟩
  unfold Arr.at
  simp only
  rw [ha, show t ++ [1, M] = (t ++ [1]) ++ [M] by simp, show i ++ [j, k] = (i ++ [j]) ++ [k] by simp, proj_append, proj_append_one, proj_append]
  rw [List.dropLast_concat, List.dropLast_concat, List.getLastD_concat]

theorem expandBeforeLast_exists (a : Arr ℝ) (t : List ℕ) (M : ℕ) (ha : a.shape = t ++ [M]) : ∃ b, expandBeforeLast a = .ok b := by
  unfold expandBeforeLast
  rw [ha]
  simp

theorem expandLast_data (a : Arr ℝ) (t : ℝ) : t ∈ a.data ↔ t ∈ (expandLast a).data := by
  unfold Arr.data expandLast
  simp only [List.mem_map, mem_indices]
  constructor
  · rintro ⟨i, hi, rfl⟩
    refine ⟨i ++ [0], ?_, by rw [List.dropLast_concat]⟩
    exact List.rel_append hi (List.Forall₂.cons (by norm_num) List.Forall₂.nil)
  · rintro ⟨i, hi, rfl⟩
    refine ⟨i.dropLast, ?_, rfl⟩
    unfold Valid at hi ⊢
    have h1 := List.forall₂_take_append _ _ _ hi
    have hl := hi.length_eq
    simp only [List.length_append, List.length_singleton] at hl
    rwa [List.dropLast_eq_take, show i.length - 1 = a.shape.length by omega]

/-- **C61** (option `grid`). With `grid=True` the colatitudes get a new last axis and the longitudes a new axis before the last one. The result has the
shape `G` of the broadcast, and at the index `(..., j, k)` the colatitude is that of `(..., j)` and the longitude that of `(..., k)`. -/
theorem C61_grid (rsurf : ℝ) (coeffs radius theta phi : Arr ℝ) (lead t : List ℕ) (d M : ℕ) (hc : coeffs.shape = lead ++ [d])
    (hphi : phi.shape = t ++ [M]) (G : List ℕ) (hG : broadcast [radius.shape, theta.shape ++ [1], t ++ [1, M], lead] = some G) (h0 : 0 ∉ G)
    (nmin nmax mmax : Option ℤ) (source : Option String) :
    ∃ P : List ℕ → Synth.Point,
      SameOutcome (synthValues rsurf coeffs radius theta phi nmin nmax mmax source (some true)) G
        (Synth.synthValues rsurf d ((indices G).map P) nmin nmax mmax source) ∧
      (∀ i, (P i).radius = radius.at i ∧ ∀ k, (P i).coeffs k = coeffs.get (proj lead i ++ [k])) ∧
      ∀ (i : List ℕ) (j k : ℕ), (P (i ++ [j, k])).theta = theta.at (i ++ [j]) ∧ (P (i ++ [j, k])).phi = phi.at (i ++ [k]) := by
  obtain ⟨phi', hp⟩ := expandBeforeLast_exists phi t M hphi
  obtain ⟨hs, hv⟩ := expandBeforeLast_at phi phi' t M hphi hp
  refine ⟨pointAt coeffs radius (expandLast theta) phi', ?_, ?_, ?_⟩
  · apply same_outcome rsurf coeffs radius theta (expandLast theta) phi phi' lead d hc (some true) _ (expandLast_data theta) G _ h0
    · unfold gridded
      rw [hp]
      rfl
    · rw [hs]
      exact hG
  · intro i
    refine ⟨rfl, fun k => ?_⟩
    unfold pointAt
    rw [hc, List.dropLast_concat]
  · intro i j k
    refine ⟨?_, hv i j k⟩
    show (expandLast theta).at (i ++ [j, k]) = _
    rw [show i ++ [j, k] = (i ++ [j]) ++ [k] by simp, expandLast_at]

/-- **C61** (shapes that do not fit). If the shapes cannot be broadcast, `synth_values` raises an exception, without and with `grid`. -/
theorem C61_shape_error (rsurf : ℝ) (coeffs radius theta phi : Arr ℝ) (lead : List ℕ) (d : ℕ) (hc : coeffs.shape = lead ++ [d])
    (nmin nmax mmax : Option ℤ) (source : Option String) (n0 n1 : ℕ) (m : ℤ) (hres : Synth.resolve d nmin nmax mmax = .ok (n0, n1, m))
    (hth : ∃ b, Synth.checkColat theta.data = .ok b) :
    (broadcast [radius.shape, theta.shape, phi.shape, lead] = none →
      synthValues rsurf coeffs radius theta phi nmin nmax mmax source none = .error .valueError) ∧
    (∀ t M, phi.shape = t ++ [M] → broadcast [radius.shape, theta.shape ++ [1], t ++ [1, M], lead] = none →
      synthValues rsurf coeffs radius theta phi nmin nmax mmax source (some true) = .error .valueError) ∧
    (phi.shape = [] → synthValues rsurf coeffs radius theta phi nmin nmax mmax source (some true) = .error .valueError) := by
  obtain ⟨b, hb⟩ := hth
  have hld : lastDim coeffs nmin = .ok d := by
    unfold lastDim
    rw [hc]
    simp
  have hdl : coeffs.shape.dropLast = lead := by rw [hc, List.dropLast_concat]
  refine ⟨?_, ?_, ?_⟩
  · intro h
    have hg : gridded none theta phi = .ok (theta, phi) := rfl
    unfold synthValues
    simp only [bind, Except.bind, hb, hld, hres, hdl, hg]
    rw [show broadcast [(radius.map fun r => r / rsurf).shape, theta.shape, phi.shape, lead] = none from h]
    rfl
  · intro t M hphi h
    obtain ⟨phi', hp⟩ := expandBeforeLast_exists phi t M hphi
    obtain ⟨hs, _⟩ := expandBeforeLast_at phi phi' t M hphi hp
    unfold synthValues
    simp only [bind, Except.bind, hb, hld, hres, hdl, gridded, Option.getD_some, if_true, hp]
    rw [show broadcast [(radius.map fun r => r / rsurf).shape, (expandLast theta).shape, phi'.shape, lead] = none by rw [hs]; exact h]
    rfl
  · intro h
    have hp : expandBeforeLast phi = .error .valueError := by
      unfold expandBeforeLast
      rw [h]
      rfl
    unfold synthValues
    simp only [bind, Except.bind, hb, hld, hres, gridded, Option.getD_some, if_true, hp]

open ChaosMagPy.Spec (rad)
open ChaosMagPy.Synth (pot fieldR fieldT fieldP)

/-- The values of `B` at an index are minus the gradient of the potential of the coefficients `c` (degrees `n0` to `n1`, orders up to `M`) at the given point. -/
def IsField (src : Source) (a : ℝ) (c : ℕ → ℝ) (n0 n1 M : ℕ) (r theta phi : ℝ) (b : ℝ × ℝ × ℝ) : Prop :=
  let V := pot src a c n0 n1 M
  HasDerivAt (fun x => V x (rad theta) (rad phi)) (-b.1) r ∧
  HasDerivAt (fun x => V r x (rad phi)) (-(r * b.2.1)) (rad theta) ∧
  HasDerivAt (fun y => V r (rad theta) y) (-(r * Real.sin (rad theta) * b.2.2)) (rad phi)

theorem outcome_field {X : Except Error (Arr ℝ × Arr ℝ × Arr ℝ)} {G : List ℕ} (a : ℝ) (ha : 0 < a) (d : ℕ) (P : List ℕ → Synth.Point) (n0 n1 M : ℕ)
    (src : Source) (hn0 : 1 ≤ n0) (hn1 : n0 ≤ n1) (hd : Spec.coefStart n0 M (n1 + 1) ≤ d) (h0 : 0 ∉ G)
    (hP : ∀ i, Valid G i → 0 < (P i).radius ∧ 0 ≤ (P i).theta ∧ (P i).theta ≤ 180)
    (h : SameOutcome X G (Synth.synthValues a d ((indices G).map P) (some n0) (some n1) (some M) (some src.name))) :
    ∃ B, X = .ok B ∧ B.1.shape = G ∧ B.2.1.shape = G ∧ B.2.2.shape = G ∧ ∀ i, Valid G i →
      IsField src a (P i).coeffs n0 n1 M (P i).radius (P i).theta (P i).phi (B.1.get i, B.2.1.get i, B.2.2.get i) := by
  have hmem : ∀ p ∈ (indices G).map P, 0 < p.radius ∧ 0 ≤ p.theta ∧ p.theta ≤ 180 := by
    intro p hp
    obtain ⟨i, hi, rfl⟩ := List.mem_map.1 hp
    exact hP i (mem_indices.1 hi)
  have hs := Synth.synthValues_succeeds a ha.ne' d ((indices G).map P) n0 n1 M src hn0 hn1 (by simpa using indices_ne_nil h0)
    (fun p hp => (hmem p hp).2) (fun p hp => (hmem p hp).1.ne') (by rw [Int.toNat_natCast]; exact hd)
  rw [hs] at h
  rcases h with ⟨e, _, he⟩ | ⟨B, L, h1, h2, s1, s2, s3, d1, d2, d3⟩
  · cases he
  · cases h2
    refine ⟨B, h1, s1, s2, s3, fun i hi => ?_⟩
    unfold Arr.data at d1 d2 d3
    rw [s1, List.map_map, List.map_map] at d1
    rw [s2, List.map_map, List.map_map] at d2
    rw [s3, List.map_map, List.map_map] at d3
    have e1 := List.map_inj_left.1 d1 i (mem_indices.2 hi)
    have e2 := List.map_inj_left.1 d2 i (mem_indices.2 hi)
    have e3 := List.map_inj_left.1 d3 i (mem_indices.2 hi)
    rw [e1, e2, e3]
    simp only [Function.comp, Int.toNat_natCast]
    exact Synth.field_gradient src a ha (P i).coeffs n0 n1 M (P i).radius (rad (P i).theta) (rad (P i).phi) (hP i hi).1

/-- **C61** (field of arrays). For arrays of any shapes that can be broadcast to a non-empty shape `G`, with valid radii and colatitudes, `synth_values`
returns three arrays of shape `G`, and the values at every index are minus the gradient of the potential of the coefficients at this index. -/
theorem C61_field (a : ℝ) (ha : 0 < a) (coeffs radius theta phi : Arr ℝ) (lead : List ℕ) (d : ℕ) (hc : coeffs.shape = lead ++ [d])
    (G : List ℕ) (hG : broadcast [radius.shape, theta.shape, phi.shape, lead] = some G) (h0 : 0 ∉ G) (n0 n1 M : ℕ) (src : Source)
    (hn0 : 1 ≤ n0) (hn1 : n0 ≤ n1) (hd : Spec.coefStart n0 M (n1 + 1) ≤ d)
    (hr : ∀ i, Valid radius.shape i → 0 < radius.get i) (ht : ∀ i, Valid theta.shape i → 0 ≤ theta.get i ∧ theta.get i ≤ 180) :
    ∃ B, synthValues a coeffs radius theta phi (some n0) (some n1) (some M) (some src.name) none = .ok B ∧
      B.1.shape = G ∧ B.2.1.shape = G ∧ B.2.2.shape = G ∧ ∀ i, Valid G i →
      IsField src a (fun k => coeffs.get (proj lead i ++ [k])) n0 n1 M (radius.at i) (theta.at i) (phi.at i) (B.1.get i, B.2.1.get i, B.2.2.get i) := by
  have hi := broadcast_into hG
  have h1 : Into radius.shape G := hi _ (by simp)
  have h2 : Into theta.shape G := hi _ (by simp)
  have h := C61_broadcast a coeffs radius theta phi lead d hc G hG h0 (some n0) (some n1) (some M) (some src.name)
  exact outcome_field a ha d (fun i => ⟨radius.at i, theta.at i, phi.at i, fun k => coeffs.get (proj lead i ++ [k])⟩) n0 n1 M src hn0 hn1 hd h0
    (fun i hv => ⟨hr _ (proj_isValid h1 hv), ht _ (proj_isValid h2 hv)⟩) h

theorem bcast_nil_left (s : List ℕ) : bcast [] s = some s := by simp [bcast, bcastRev]
theorem bcast_nil_right (s : List ℕ) : bcast s [] = some s := by simp [bcast, bcastRev_nil]
theorem bcast_outer (N M : ℕ) : bcast [N, 1] [1, M] = some [N, M] := by
  simp only [bcast, bcastRev, List.reverse_cons, List.reverse_nil, List.nil_append, List.cons_append]
  by_cases h1 : N = 1
  · by_cases h2 : 1 = M
    · simp [h1, ← h2]
    · simp [h1, h2]
  · by_cases h2 : 1 = M
    · simp [h1, ← h2]
    · simp [h1, h2]

/-- **C61** (regular grid). For `N` colatitudes, `M` longitudes, one radius and one set of coefficients, `grid=True` gives arrays of shape `(N, M)` with
the field at colatitude `j` and longitude `k`. -/
theorem C61_regular_grid (a : ℝ) (ha : 0 < a) (coeffs theta phi : Arr ℝ) (r : ℝ) (d N M : ℕ) (hN : 0 < N) (hM : 0 < M) (hc : coeffs.shape = [d])
    (hth : theta.shape = [N]) (hph : phi.shape = [M]) (n0 n1 m : ℕ) (src : Source) (hn0 : 1 ≤ n0) (hn1 : n0 ≤ n1) (hd : Spec.coefStart n0 m (n1 + 1) ≤ d)
    (hr : 0 < r) (ht : ∀ j < N, 0 ≤ theta.get [j] ∧ theta.get [j] ≤ 180) :
    ∃ B, synthValues a coeffs (scalar r) theta phi (some n0) (some n1) (some m) (some src.name) (some true) = .ok B ∧
      B.1.shape = [N, M] ∧ B.2.1.shape = [N, M] ∧ B.2.2.shape = [N, M] ∧ ∀ j < N, ∀ k < M,
      IsField src a (fun q => coeffs.get [q]) n0 n1 m r (theta.get [j]) (phi.get [k]) (B.1.get [j, k], B.2.1.get [j, k], B.2.2.get [j, k]) := by
  have hG : broadcast [(scalar r).shape, theta.shape ++ [1], [] ++ [1, M], []] = some [N, M] := by
    rw [hth]
    simp only [broadcast, scalar, List.foldlM_cons, List.foldlM_nil, bind, Option.bind_some, pure, bcast_nil_left, bcast_nil_right, List.nil_append,
      List.cons_append, bcast_outer]
  obtain ⟨P, h1, h2, h3⟩ := C61_grid a coeffs (scalar r) theta phi [] [] d M (by simpa using hc) (by simpa using hph) [N, M] hG (by simp; omega)
    (some n0) (some n1) (some m) (some src.name)
  have hval : ∀ j < N, ∀ k < M, (P [j, k]).radius = r ∧ (P [j, k]).coeffs = (fun q => coeffs.get [q]) ∧ (P [j, k]).theta = theta.get [j] ∧ (P [j, k]).phi = phi.get [k] := by
    intro j hj k hk
    obtain ⟨a1, a2⟩ := h3 [] j k
    simp only [List.nil_append] at a1 a2
    refine ⟨(h2 _).1, ?_, ?_, ?_⟩
    · funext q
      rw [(h2 _).2]
      rfl
    · rw [a1, at_valid _ _ (by rw [hth]; exact List.Forall₂.cons hj List.Forall₂.nil)]
    · rw [a2, at_valid _ _ (by rw [hph]; exact List.Forall₂.cons hk List.Forall₂.nil)]
  have hcase : ∀ i, Valid [N, M] i → ∃ j < N, ∃ k < M, i = [j, k] := by
    intro i hi
    unfold Valid at hi
    cases hi with
    | cons hj hi =>
      cases hi with
      | cons hk hi =>
        cases hi
        exact ⟨_, hj, _, hk, rfl⟩
  obtain ⟨B, b1, b2, b3, b4, b5⟩ := outcome_field a ha d P n0 n1 m src hn0 hn1 hd (by simp; omega) (by
    intro i hi
    obtain ⟨j, hj, k, hk, rfl⟩ := hcase i hi
    obtain ⟨v1, v2, v3, v4⟩ := hval j hj k hk
    rw [v1, v3]
    exact ⟨hr, ht j hj⟩) h1
  refine ⟨B, b1, b2, b3, b4, fun j hj k hk => ?_⟩
  obtain ⟨v1, v2, v3, v4⟩ := hval j hj k hk
  have := b5 [j, k] (List.Forall₂.cons hj (List.Forall₂.cons hk List.Forall₂.nil))
  rwa [v1, v2, v3, v4] at this

/-- **C61** (several sets of coefficients on a grid). With `grid=True`, `N` colatitudes and `M` longitudes, coefficients of shape `(T, d)` are not combined
with all points of the grid: set number `k` belongs to longitude number `k` if `T = M`, and other numbers of sets (except one) raise ValueError. -/
theorem C61_grid_pairs (N M T : ℕ) :
    broadcast [[], [N] ++ [1], [] ++ [1, M], [T]] = (if T = M ∨ T = 1 then some [N, M] else if M = 1 then some [N, T] else none) := by
  simp only [broadcast, List.foldlM_cons, List.foldlM_nil, bind, Option.bind_some, pure, bcast_nil_left, List.nil_append, List.cons_append, bcast_outer]
  simp only [bcast, bcastRev, List.reverse_cons, List.reverse_nil, List.nil_append, List.cons_append, Option.bind_some]
  by_cases h2 : M = T
  · rw [if_pos h2, if_pos (Or.inl h2.symm)]; simp
  · by_cases h3 : M = 1
    · by_cases h4 : T = 1
      · exact absurd (h3.trans h4.symm) h2
      · rw [if_neg h2, if_pos h3, if_neg (by rintro (h | h); exacts [h2 h.symm, h4 h]), if_pos h3]; simp
    · by_cases h4 : T = 1
      · rw [if_neg h2, if_neg h3, if_pos h4, if_pos (Or.inr h4)]; simp
      · rw [if_neg h2, if_neg h3, if_neg h4, if_neg (by rintro (h | h); exacts [h2 h.symm, h4 h]), if_neg h3]; simp

/-- Concrete shapes: coefficients at 5 times, a grid of 3 x 5 points, a radius per colatitude. -/
example : broadcast [[3, 1], [3] ++ [1], [] ++ [1, 5], [5]] = some [3, 5] := by decide
example : broadcast [[4, 1, 1], [3, 1], [1, 5], []] = some [4, 3, 5] := by decide
example : broadcast [[2], [3], [], []] = none := by decide

/-- The hypotheses of `C61_regular_grid` are met by a grid with both poles. -/
example : ∃ B, synthValues 6371.2 ⟨[3], fun i => (i.headD 0 : ℝ) - 30000⟩ (scalar 6371.2) ⟨[3], fun i => 90 * (i.headD 0 : ℝ)⟩ ⟨[4], fun i => 90 * (i.headD 0 : ℝ)⟩
    (some 1) (some 1) (some 1) (some "internal") (some true) = .ok B ∧ B.1.shape = [3, 4] := by
  obtain ⟨B, h, hs, _⟩ := C61_regular_grid 6371.2 (by norm_num) ⟨[3], fun i => (i.headD 0 : ℝ) - 30000⟩ ⟨[3], fun i => 90 * (i.headD 0 : ℝ)⟩
    ⟨[4], fun i => 90 * (i.headD 0 : ℝ)⟩ 6371.2 3 3 4 (by norm_num) (by norm_num) rfl rfl rfl 1 1 1 .internal le_rfl le_rfl (by decide) (by norm_num) (by
      intro j hj
      have : (j : ℝ) ≤ 2 := by exact_mod_cast (by omega : j ≤ 2)
      have h0 : (0 : ℝ) ≤ j := Nat.cast_nonneg j
      simp only [List.headD_cons]
      constructor <;> linarith)
  exact ⟨B, h, hs⟩

end ChaosMagPy.SynthArr
