import Verif.Lemmas.ChaosArr
/-!
# C62: arrays of any shape in the methods of `CHAOS`
-/
namespace ChaosMagPy.ChaosArr
open ChaosMagPy.NumPy
open ChaosMagPy.Chaos
open ChaosMagPy.SynthArr (gridded expandLast_at expandLast_data expandBeforeLast_at expandBeforeLast_exists)

/-- The vectorised call and the call with a list of points have the same outcome: the same exception, or an array of shape `G` whose values in C order
are the results for the points. -/
def SameValues (X : Except Error (Arr Val)) (G : List ℕ) (Y : Except Error (List Val)) : Prop :=
  (∃ e, X = .error e ∧ Y = .error e) ∨ ∃ B L, X = .ok B ∧ Y = .ok L ∧ B.shape = G ∧ B.data = L

theorem Agrees.same {G : List ℕ} {X : Except Error (Arr Val)} {Y : Except Error (List Val)} (h : Agrees G G X Y) : SameValues X G Y := by
  rcases h with h | ⟨B, h1, h2, h3⟩
  · exact Or.inl h
  · refine Or.inr ⟨B, _, h1, h3, h2, ?_⟩
    unfold Arr.data
    rw [h2]
    apply List.map_congr_left
    intro i hi
    rw [at_valid _ _ (by rw [h2]; exact mem_indices.1 hi)]

/-- RC values at the points of the shape `G`; without an array they are taken from the RC file. -/
def rcAt (G : List ℕ) (rc : Option (Arr ℝ)) : Option (List ℝ) := rc.map fun r => (indices G).map r.at

theorem fit_none (time radius theta phi : Arr ℝ) (G : List ℕ) (hG : broadcast [time.shape, radius.shape, theta.shape, phi.shape] = some G) (h0 : 0 ∉ G) :
    Fit none time radius theta phi theta phi G G where
  grid := rfl
  colat := fun _ => Iff.rfl
  shape := broadcast_congr hG (by simp) (by simp)
  into := into_refl G
  pos := h0

theorem fit_static (radius theta phi : Arr ℝ) (G H : List ℕ) (hG : broadcast [radius.shape, theta.shape, phi.shape] = some G) (hH : Into G H) (h0 : 0 ∉ H) (t : ℝ) :
    Fit none (scalar t) radius theta phi theta phi G H where
  grid := rfl
  colat := fun _ => Iff.rfl
  shape := broadcast_congr hG (by simp [scalar]) (by simp)
  into := hH
  pos := h0

/-- **C62** (calls). If the shapes of times, radii, colatitudes and longitudes can be broadcast to a non-empty shape `G`, and given RC values fit to
the times, then calling the model has the same outcome as calling it for the list of all points of the broadcast arrays: the result has the shape `G`,
and the value at an index is the field at the time, radius, colatitude and longitude that belong to this index, for every set of sources. -/
theorem C62_call (env : Env) (m : Chaos) (time radius theta phi : Arr ℝ) (rcE rcI : Option (Arr ℝ)) (sources : Sources) (nmaxStatic : Option ℕ)
    (G : List ℕ) (hG : broadcast [time.shape, radius.shape, theta.shape, phi.shape] = some G) (h0 : 0 ∉ G)
    (hE : ∀ r ∈ rcE, broadcast [time.shape, r.shape] = some time.shape) (hI : ∀ r ∈ rcI, broadcast [time.shape, r.shape] = some time.shape) :
    SameValues (ChaosArr.call env m time radius theta phi rcE rcI sources nmaxStatic) G
      (Chaos.call env m ((indices G).map fun i => ⟨time.at i, radius.at i, theta.at i, phi.at i⟩) (rcAt G rcE) (rcAt G rcI) sources nmaxStatic) := by
  have hE' : ∀ r ∈ rcE, Into r.shape time.shape := fun r hr => broadcast_into (hE r hr) _ (by simp)
  have hI' : ∀ r ∈ rcI, Into r.shape time.shape := fun r hr => broadcast_into (hI r hr) _ (by simp)
  have F := fit_none time radius theta phi G hG h0
  obtain ⟨S, hS, hSi⟩ := broadcast_of_into (l := [radius.shape, theta.shape, phi.shape]) (G := G) (by
    intro s hs
    exact broadcast_into hG s (List.mem_cons_of_mem _ hs))
  have FS := fit_static radius theta phi S G hS hSi h0
  have key : ∀ (X : Except Error (Arr Val)) (Y : Except Error (List Val)), Agrees G G X Y →
      ∀ (f : Arr Val → Except Error (Arr Val)) (g : List Val → Except Error (List Val)),
        (∀ B : Arr Val, B.shape = G → Agrees G G (f B) (g ((indices G).map B.at))) →
        Agrees G G (X >>= f) (Y >>= g) := by
    intro X Y h f g hfg
    rcases h with ⟨e, h1, h2⟩ | ⟨B, h1, h2, h3⟩
    · rw [h1, h2]; exact Or.inl ⟨e, rfl, rfl⟩
    · rw [h1, h3]; exact hfg B h2
  apply Agrees.same
  unfold ChaosArr.call Chaos.call
  rw [hG]
  simp only
  have hz : ((indices G).map fun i => (⟨time.at i, radius.at i, theta.at i, phi.at i⟩ : Pt)).map (fun _ => some ((0 : ℝ), (0 : ℝ), (0 : ℝ))) =
      (indices G).map (Arr.at ⟨G, fun _ => some (0, 0, 0)⟩) := by
    rw [List.map_map]; rfl
  rw [hz]
  refine key _ _ (addIf_agrees h0 _ ⟨G, fun _ => some (0, 0, 0)⟩ rfl _ _ G (into_refl G) (tdep_agrees F env m none none none)) _ _ fun B1 hB1 => ?_
  refine key _ _ (addIf_agrees h0 _ B1 hB1 _ _ S hSi (static_agrees FS env m (some (nmaxStatic.getD 85)) none none time)) _ _ fun B2 hB2 => ?_
  refine key _ _ (addIf_agrees h0 _ B2 hB2 _ _ G (into_refl G) (gsm_agrees F env m none (some "all"))) _ _ fun B3 hB3 => ?_
  exact addIf_agrees h0 _ B3 hB3 _ _ G (into_refl G) (sm_agrees F env m rcE rcI hE' hI' none (some "all"))

/-- **C62** (shapes that do not fit). A call with arrays that cannot be broadcast raises ValueError, whatever sources are selected. -/
theorem C62_shape_error (env : Env) (m : Chaos) (time radius theta phi : Arr ℝ) (rcE rcI : Option (Arr ℝ)) (sources : Sources) (nmaxStatic : Option ℕ)
    (hG : broadcast [time.shape, radius.shape, theta.shape, phi.shape] = none) :
    ChaosArr.call env m time radius theta phi rcE rcI sources nmaxStatic = .error .valueError := by
  unfold ChaosArr.call
  rw [hG]

/-- **C62** (parts). The methods for the parts of the model have the same outcome as for the list of all points of the broadcast arrays; the static
part needs no time, and its result has the shape of the broadcast coordinates. -/
theorem C62_parts (env : Env) (m : Chaos) (time radius theta phi : Arr ℝ) (rcE rcI : Option (Arr ℝ)) (G : List ℕ)
    (hG : broadcast [time.shape, radius.shape, theta.shape, phi.shape] = some G) (h0 : 0 ∉ G)
    (hE : ∀ r ∈ rcE, broadcast [time.shape, r.shape] = some time.shape) (hI : ∀ r ∈ rcI, broadcast [time.shape, r.shape] = some time.shape)
    (nmax deriv : Option ℕ) (e : Option PPoly.Extrap) (source : Option String) :
    let pts : List Pt := (indices G).map fun i => ⟨time.at i, radius.at i, theta.at i, phi.at i⟩
    SameValues (valuesTdep env m time radius theta phi nmax deriv e none) G (synthValuesTdep env m pts nmax deriv e) ∧
    SameValues (valuesGsm env m time radius theta phi nmax source none) G (synthValuesGsm env m pts nmax source) ∧
    SameValues (valuesSm env m time radius theta phi rcE rcI nmax source none) G
      (synthValuesSm env m pts (rcAt G rcE) (rcAt G rcI) nmax source) := by
  have hE' : ∀ r ∈ rcE, Into r.shape time.shape := fun r hr => broadcast_into (hE r hr) _ (by simp)
  have hI' : ∀ r ∈ rcI, Into r.shape time.shape := fun r hr => broadcast_into (hI r hr) _ (by simp)
  have F := fit_none time radius theta phi G hG h0
  exact ⟨(tdep_agrees F env m nmax deriv e).same, (gsm_agrees F env m nmax source).same, (sm_agrees F env m rcE rcI hE' hI' nmax source).same⟩

/-- **C62** (static part). -/
theorem C62_static (env : Env) (m : Chaos) (radius theta phi : Arr ℝ) (G : List ℕ)
    (hG : broadcast [radius.shape, theta.shape, phi.shape] = some G) (h0 : 0 ∉ G) (nmax deriv : Option ℕ) (e : Option PPoly.Extrap) (t : ℝ) :
    SameValues (valuesStatic env m radius theta phi nmax deriv e none) G
      (synthValuesStatic env m ((indices G).map fun i => ⟨t, radius.at i, theta.at i, phi.at i⟩) nmax deriv e) :=
  (static_agrees (fit_static radius theta phi G G hG (into_refl G) h0) env m nmax deriv e (scalar t)).same

/-- **C62** (option `grid`). With `grid=True` the colatitudes get a new last axis and the longitudes a new axis before the last one; the methods for
the parts then have the same outcome as for the list of the points of the grid, where the index `(..., j, k)` has the colatitude of `(..., j)` and the
longitude of `(..., k)`. -/
theorem C62_grid (env : Env) (m : Chaos) (time radius theta phi : Arr ℝ) (rcE rcI : Option (Arr ℝ)) (t : List ℕ) (M : ℕ) (hphi : phi.shape = t ++ [M])
    (G : List ℕ) (hG : broadcast [time.shape, radius.shape, theta.shape ++ [1], t ++ [1, M]] = some G) (h0 : 0 ∉ G)
    (hE : ∀ r ∈ rcE, broadcast [time.shape, r.shape] = some time.shape) (hI : ∀ r ∈ rcI, broadcast [time.shape, r.shape] = some time.shape)
    (nmax deriv : Option ℕ) (e : Option PPoly.Extrap) (source : Option String) :
    ∃ P : List ℕ → Pt,
      SameValues (valuesTdep env m time radius theta phi nmax deriv e (some true)) G (synthValuesTdep env m ((indices G).map P) nmax deriv e) ∧
      SameValues (valuesGsm env m time radius theta phi nmax source (some true)) G (synthValuesGsm env m ((indices G).map P) nmax source) ∧
      SameValues (valuesSm env m time radius theta phi rcE rcI nmax source (some true)) G
        (synthValuesSm env m ((indices G).map P) (rcAt G rcE) (rcAt G rcI) nmax source) ∧
      (time.shape = [] → SameValues (valuesStatic env m radius theta phi nmax deriv e (some true)) G
        (synthValuesStatic env m ((indices G).map P) nmax deriv e)) ∧
      (∀ i, (P i).time = time.at i ∧ (P i).radius = radius.at i) ∧
      ∀ (i : List ℕ) (j k : ℕ), (P (i ++ [j, k])).theta = theta.at (i ++ [j]) ∧ (P (i ++ [j, k])).phi = phi.at (i ++ [k]) := by
  have hE' : ∀ r ∈ rcE, Into r.shape time.shape := fun r hr => broadcast_into (hE r hr) _ (by simp)
  have hI' : ∀ r ∈ rcI, Into r.shape time.shape := fun r hr => broadcast_into (hI r hr) _ (by simp)
  obtain ⟨phi', hp⟩ := expandBeforeLast_exists phi t M hphi
  obtain ⟨hs, hv⟩ := expandBeforeLast_at phi phi' t M hphi hp
  have hgrid : gridded (some true) theta phi = .ok (expandLast theta, phi') := by
    unfold gridded
    rw [hp]
    rfl
  have F : Fit (some true) time radius theta phi (expandLast theta) phi' G G := by
    refine ⟨hgrid, expandLast_data theta, ?_, into_refl G, h0⟩
    rw [hs]
    exact broadcast_congr hG (by simp [expandLast]) (by simp [expandLast])
  refine ⟨ptAt time radius (expandLast theta) phi', (tdep_agrees F env m nmax deriv e).same, (gsm_agrees F env m nmax source).same,
    (sm_agrees F env m rcE rcI hE' hI' nmax source).same, ?_, fun i => ⟨rfl, rfl⟩, fun i j k => ⟨?_, hv i j k⟩⟩
  · intro htime
    refine (static_agrees (fun x => ?_) env m nmax deriv e time).same
    refine ⟨hgrid, expandLast_data theta, ?_, into_refl G, h0⟩
    have := F.shape
    rwa [htime] at this
  · show (expandLast theta).at (i ++ [j, k]) = _
    rw [show i ++ [j, k] = (i ++ [j]) ++ [k] by simp, expandLast_at]

/-- **C62** (RC values). Given RC values that do not fit to the times raise ValueError in the SM part (if they are used, and the external part does not
fail before). -/
theorem C62_rc_error (env : Env) (m : Chaos) (time radius theta phi : Arr ℝ) (rcE rcI : Option (Arr ℝ)) (nmax : Option ℕ) (grid : Option Bool) (r : Arr ℝ)
    (h : broadcast [time.shape, r.shape] ≠ some time.shape) :
    valuesSm env m time radius theta phi (some r) rcI nmax (some "external") grid = .error .valueError ∧
    valuesSm env m time radius theta phi rcE (some r) nmax (some "internal") grid = .error .valueError ∧
    valuesSm env m time radius theta phi (some r) rcI nmax (some "all") grid = .error .valueError ∧
    valuesSm env m time radius theta phi (some r) rcI nmax none grid = .error .valueError := by
  have hb : ∀ s : List ℕ, bcast [] s = some s := fun s => by simp [bcast, bcastRev]
  have hne : ¬ bcast r.shape time.shape = some time.shape := by
    intro hc
    apply h
    have := bcast_self (bcast_into hc).1
    simp only [broadcast, List.foldlM_cons, List.foldlM_nil, bind, Option.bind_some, pure, hb, this]
  have hr : rcArg time (some r) = .error .valueError := by
    show (if bcast r.shape time.shape = some time.shape then Except.ok (some ((indices time.shape).map r.at)) else Except.error Error.valueError) = _
    rw [if_neg hne]
  unfold valuesSm
  simp only [Option.getD_some, Option.getD_none, bind, Except.bind]
  refine ⟨?_, ?_, ?_, ?_⟩
  · rw [if_neg (by decide), if_pos (Or.inl trivial), if_pos trivial, hr]
  · rw [if_neg (by decide), if_pos (Or.inr trivial), if_neg (by decide), hr]
  · rw [if_pos trivial, hr]
  · rw [if_pos trivial, hr]

/-- Concrete shapes: three epochs and a map of 4 x 5 points. -/
example : broadcast [[3, 1, 1], [], [4, 1], [5]] = some [3, 4, 5] := by decide
/-- One RC value per epoch. -/
example : broadcast [[3, 1, 1], [3, 1, 1]] = some [3, 1, 1] := by decide
/-- RC values of the shape of the result do not fit. -/
example : broadcast [[3, 1, 1], [3, 4, 5]] ≠ some [3, 1, 1] := by decide
/-- Three times and four positions do not fit. -/
example : broadcast [[3], [4], [4], [4]] = none := by decide

end ChaosMagPy.ChaosArr
