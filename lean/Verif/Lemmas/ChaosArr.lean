import Verif.Model.ChaosArr
import Verif.Props.Broadcast
/-! The vectorised methods agree with the methods for lists of points. -/
namespace ChaosMagPy.ChaosArr
open ChaosMagPy.NumPy
open ChaosMagPy.Chaos
open ChaosMagPy.SynthArr (gridded pointAt outcome_into)

/-- Same outcome: the same exception, or an array of shape `G` whose values, broadcast to the shape `H`, are the list. -/
def Agrees (G H : List ℕ) (X : Except Error (Arr Val)) (Y : Except Error (List Val)) : Prop :=
  (∃ e, X = .error e ∧ Y = .error e) ∨ ∃ B, X = .ok B ∧ B.shape = G ∧ Y = .ok ((indices H).map B.at)

/-- The shapes and the option `grid`: `theta'`, `phi'` are the coordinates with new axes, `G` is the shape of the result, which fits into `H`. -/
structure Fit (grid : Option Bool) (time radius theta phi theta' phi' : Arr ℝ) (G H : List ℕ) : Prop where
  grid : gridded grid theta phi = .ok (theta', phi')
  colat : ∀ t, t ∈ theta.data ↔ t ∈ theta'.data
  shape : broadcast [radius.shape, theta'.shape, phi'.shape, time.shape] = some G
  into : Into G H
  pos : 0 ∉ H

/-- The point of an index. -/
noncomputable def ptAt (time radius theta phi : Arr ℝ) (i : List ℕ) : Pt := ⟨time.at i, radius.at i, theta.at i, phi.at i⟩

/-- Coefficients for the array of times and for the list of the broadcast times. -/
def RowsAgree (s H : List ℕ) (A L : Except Error (ℕ × List (Option (ℕ → ℝ)))) : Prop :=
  (∃ e, A = .error e ∧ L = .error e) ∨ ∃ k Q, A = .ok (k, (indices s).map Q) ∧ L = .ok (k, (indices H).map fun i => Q (proj s i))

theorem reshape_get {α : Type} [Inhabited α] (s : List ℕ) (Q : List ℕ → α) (i : List ℕ) (hi : Valid s i) : (reshape s ((indices s).map Q)).get i = Q i := by
  unfold reshape
  simp only [List.getD, idxOf_indices s i hi Q, Option.getD_some]

theorem reshape_at {α : Type} [Inhabited α] (s H : List ℕ) (Q : List ℕ → α) (h : Into s H) (i : List ℕ) (hi : Valid H i) :
    (reshape s ((indices s).map Q)).at i = Q (proj s i) := reshape_get s Q _ (proj_isValid h hi)

theorem ofSynth_error {α : Type} (e : Synth.Error) : ∃ e', (ofSynth (.error e) : Except Error α) = .error e' ∧ ∀ β : Type, (ofSynth (.error e) : Except Error β) = .error e' := by
  cases e <;> exact ⟨_, rfl, fun _ => rfl⟩

variable {grid : Option Bool} {time radius theta phi theta' phi' : Arr ℝ} {G H : List ℕ}

theorem fieldArr_agrees (F : Fit grid time radius theta phi theta' phi' G H) (rSurf : ℝ) (dim : ℕ) (Q : List ℕ → Option (ℕ → ℝ)) (nmax : Option ℕ)
    (source : String) :
    Agrees G H (fieldArr rSurf dim (reshape time.shape ((indices time.shape).map Q)) radius theta phi nmax source grid)
      (fieldOfRows rSurf dim ((indices H).map fun i => Q (proj time.shape i)) ((indices H).map (ptAt time radius theta' phi')) nmax source) := by
  have hT : Into time.shape H := into_trans (broadcast_into F.shape _ (by simp)) F.into
  have hpts : (indices H).map (pointAt (coeffArray dim (reshape time.shape ((indices time.shape).map Q))) radius theta' phi') =
      withRows ((indices H).map (ptAt time radius theta' phi')) ((indices H).map fun i => Q (proj time.shape i)) := by
    unfold withRows
    rw [List.zipWith_map, List.zipWith_self]
    apply List.map_congr_left
    intro i hi
    have hi := mem_indices.1 hi
    unfold pointAt ptAt
    congr 1
    funext k
    unfold coeffArray
    simp only [List.dropLast_concat, List.getLastD_concat]
    rw [show (reshape time.shape ((indices time.shape).map Q)).shape = time.shape from rfl, reshape_get _ _ _ (proj_isValid hT hi)]
  unfold fieldArr fieldOfRows
  simp only
  change Agrees G H _ (match ofSynth (Synth.synthValues rSurf dim (withRows _ _) none (nmax.map fun n => (n : ℤ)) none (some source)) with
    | .error e => Except.error e
    | .ok l => .ok (List.zipWith (fun (r : Option (ℕ → ℝ)) b => r.map fun _ => b) _ l))
  rw [← hpts]
  rcases outcome_into rSurf (coeffArray dim (reshape time.shape ((indices time.shape).map Q))) radius theta theta' phi phi' time.shape dim rfl grid F.grid F.colat
    G H F.shape F.into F.pos none (nmax.map fun n => (n : ℤ)) none (some source) with ⟨e, h1, h2⟩ | ⟨B, b1, b2, b3, b4, b5⟩
  · rw [h1, h2]
    obtain ⟨e', h3, h4⟩ := ofSynth_error (α := Arr ℝ × Arr ℝ × Arr ℝ) e
    rw [h3, h4]
    exact Or.inl ⟨e', rfl, rfl⟩
  · rw [b1, b5]
    refine Or.inr ⟨_, rfl, b2, ?_⟩
    simp only [ofSynth]
    rw [List.zipWith_map, List.zipWith_self]
    congr 1
    apply List.map_congr_left
    intro i hi
    have hi := mem_indices.1 hi
    unfold Arr.at
    simp only [b2, b3, b4]
    have h1 : Into time.shape G := broadcast_into F.shape _ (by simp)
    rw [show (reshape time.shape ((indices time.shape).map Q)).shape = time.shape from rfl, proj_into h1, reshape_get _ _ _ (proj_isValid hT hi)]

theorem fieldArr_of_rows (F : Fit grid time radius theta phi theta' phi' G H) (rSurf : ℝ) (nmax : Option ℕ) (source : String)
    (A L : Except Error (ℕ × List (Option (ℕ → ℝ)))) (h : RowsAgree time.shape H A L) :
    Agrees G H (do let (dim, rows) ← A; fieldArr rSurf dim (reshape time.shape rows) radius theta phi nmax source grid)
      (do let (dim, rows) ← L; fieldOfRows rSurf dim rows ((indices H).map (ptAt time radius theta' phi')) nmax source) := by
  rcases h with ⟨e, h1, h2⟩ | ⟨k, Q, h1, h2⟩
  · rw [h1, h2]
    exact Or.inl ⟨e, rfl, rfl⟩
  · rw [h1, h2]
    exact fieldArr_agrees F rSurf k Q nmax source

theorem aminmax_congr (l l' : List ℝ) (h : ∀ t, t ∈ l ↔ t ∈ l') : PPoly.aminmax l = PPoly.aminmax l' := by
  cases l with
  | nil =>
    cases l' with
    | nil => rfl
    | cons y ys => exact absurd ((h y).2 List.mem_cons_self) (by simp)
  | cons x xs =>
    cases l' with
    | nil => exact absurd ((h x).1 List.mem_cons_self) (by simp)
    | cons y ys =>
      have lo : ∀ (x : ℝ) (xs : List ℝ), xs.foldl min x ∈ x :: xs ∧ ∀ t ∈ x :: xs, xs.foldl min x ≤ t := by
        intro x xs
        constructor
        · rcases Synth.foldl_min_mem xs x with h | h
          · rw [h]; exact List.mem_cons_self
          · exact List.mem_cons_of_mem _ h
        · intro t ht
          rcases List.mem_cons.1 ht with rfl | ht
          · exact (Synth.foldl_min_le xs _).1
          · exact (Synth.foldl_min_le xs x).2 t ht
      have hi : ∀ (x : ℝ) (xs : List ℝ), xs.foldl max x ∈ x :: xs ∧ ∀ t ∈ x :: xs, t ≤ xs.foldl max x := by
        intro x xs
        constructor
        · rcases Synth.foldl_max_mem xs x with h | h
          · rw [h]; exact List.mem_cons_self
          · exact List.mem_cons_of_mem _ h
        · intro t ht
          rcases List.mem_cons.1 ht with rfl | ht
          · exact (Synth.le_foldl_max xs _).1
          · exact (Synth.le_foldl_max xs x).2 t ht
      unfold PPoly.aminmax
      simp only [Except.ok.injEq, Prod.mk.injEq]
      constructor
      · exact le_antisymm ((lo x xs).2 _ ((h _).2 (lo y ys).1)) ((lo y ys).2 _ ((h _).1 (lo x xs).1))
      · exact le_antisymm ((hi y ys).2 _ ((h _).1 (hi x xs).1)) ((hi x xs).2 _ ((h _).2 (hi y ys).1))

theorem prepare_congr (b : PPoly.Base) (c : ℕ → ℕ → ℕ → ℝ) (l l' : List ℝ) (h : ∀ t, t ∈ l ↔ t ∈ l') (e : PPoly.Extrap) :
    PPoly.prepare b c l e = PPoly.prepare b c l' e := by
  unfold PPoly.prepare
  rw [aminmax_congr l l' h]

/-- The times of the list are those of the array. -/
theorem times_mem (h : Into time.shape H) (h0 : 0 ∉ H) (t : ℝ) : t ∈ time.data ↔ t ∈ (indices H).map time.at := SynthArr.mem_data_at time h h0 t

theorem base_rows (b : PPoly.Base) (h : Into time.shape H) (h0 : 0 ∉ H) (dim deriv : Option ℕ) (e : Option PPoly.Extrap) :
    RowsAgree time.shape H (ofPPoly (b.synthCoeffs time.data dim deriv e)) (ofPPoly (b.synthCoeffs ((indices H).map time.at) dim deriv e)) := by
  unfold PPoly.Base.synthCoeffs
  cases hc : b.coeffs with
  | none => exact Or.inl ⟨_, rfl, rfl⟩
  | some c =>
    simp only
    split_ifs with h1
    · exact Or.inl ⟨_, rfl, rfl⟩
    · simp only [bind, Except.bind, pure, Except.pure]
      rw [prepare_congr b c _ _ (times_mem h h0)]
      cases hp : PPoly.prepare b c ((indices H).map time.at) (e.getD (.str "linear")) with
      | error err => cases err; exact Or.inl ⟨_, rfl, rfl⟩
      | ok p =>
        have hw : ∀ k : ℕ, RowsAgree time.shape H
            (ofPPoly (.ok (k, time.data.map fun t => ((p.1.derivative (deriv.getD 0)).eval p.2 0 t).map fun v d => v d * (365.25 : ℝ) ^ (deriv.getD 0))))
            (ofPPoly (.ok (k, ((indices H).map time.at).map fun t => ((p.1.derivative (deriv.getD 0)).eval p.2 0 t).map fun v d => v d * (365.25 : ℝ) ^ (deriv.getD 0)))) := by
          intro k
          refine Or.inr ⟨k, fun i => ((p.1.derivative (deriv.getD 0)).eval p.2 0 (time.get i)).map fun v d => v d * (365.25 : ℝ) ^ (deriv.getD 0), ?_, ?_⟩
          · simp only [ofPPoly, Arr.data, List.map_map]; rfl
          · simp only [ofPPoly, List.map_map]; rfl
        exact hw _

theorem modelValues_agrees (F : Fit grid time radius theta phi theta' phi' G H) (rSurf : ℝ) (m : Model) (nmax deriv : Option ℕ) (e : Option PPoly.Extrap) :
    Agrees G H (modelValues rSurf m time radius theta phi nmax deriv e grid)
      (m.synthValues rSurf ((indices H).map (ptAt time radius theta' phi')) nmax deriv e) := by
  have hT : Into time.shape H := into_trans (broadcast_into F.shape _ (by simp)) F.into
  have ht : ((indices H).map (ptAt time radius theta' phi')).map Pt.time = (indices H).map time.at := by
    rw [List.map_map]; rfl
  unfold modelValues Model.synthValues PPoly.modelSynthCoeffs
  rw [ht]
  exact fieldArr_of_rows F rSurf _ m.source _ _ (base_rows m.base hT F.pos _ deriv e)

theorem tdep_agrees (F : Fit grid time radius theta phi theta' phi' G H) (env : Env) (m : Chaos) (nmax deriv : Option ℕ) (e : Option PPoly.Extrap) :
    Agrees G H (valuesTdep env m time radius theta phi nmax deriv e grid)
      (synthValuesTdep env m ((indices H).map (ptAt time radius theta' phi')) nmax deriv e) := by
  unfold valuesTdep synthValuesTdep
  cases m.tdep with
  | none => exact Or.inl ⟨_, rfl, rfl⟩
  | some x => exact modelValues_agrees F env.rSurf x nmax deriv e

theorem static_agrees (F : ∀ t, Fit grid (scalar t) radius theta phi theta' phi' G H) (env : Env) (m : Chaos) (nmax deriv : Option ℕ)
    (e : Option PPoly.Extrap) (time : Arr ℝ) :
    Agrees G H (valuesStatic env m radius theta phi nmax deriv e grid)
      (synthValuesStatic env m ((indices H).map (ptAt time radius theta' phi')) nmax deriv e) := by
  unfold valuesStatic synthValuesStatic
  cases m.static with
  | none => exact Or.inl ⟨_, rfl, rfl⟩
  | some x =>
    have := modelValues_agrees (F (PPoly.first x.base.breaks)) env.rSurf x nmax deriv e
    simp only [List.map_map]
    exact this

/-- Coefficients without NaN. -/
def CoefAgree (s H : List ℕ) (A L : Except Error (ℕ × List (ℕ → ℝ))) : Prop :=
  (∃ e, A = .error e ∧ L = .error e) ∨ ∃ k Q, A = .ok (k, (indices s).map Q) ∧ L = .ok (k, (indices H).map fun i => Q (proj s i))

theorem fieldOfArr_agrees (F : Fit grid time radius theta phi theta' phi' G H) (rSurf : ℝ) (source : String) (k : ℕ) (Q : List ℕ → ℕ → ℝ) :
    Agrees G H (fieldOfArr rSurf time radius theta phi source grid (k, (indices time.shape).map Q))
      (fieldOf rSurf ((indices H).map (ptAt time radius theta' phi')) source (k, (indices H).map fun i => Q (proj time.shape i))) := by
  unfold fieldOfArr fieldOf
  have := fieldArr_agrees F rSurf k (fun i => some (Q i)) none source
  simp only [List.map_map]
  exact this

theorem nonempty_congr (l l' : List ℝ) (h : ∀ t, t ∈ l ↔ t ∈ l') : nonempty l = nonempty l' := by
  unfold nonempty
  have : l = [] ↔ l' = [] := by
    simp only [List.eq_nil_iff_forall_not_mem, h]
  simp only [this]

theorem gsm_rows (env : Env) (m : Chaos) (h : Into time.shape H) (h0 : 0 ∉ H) (nmax : Option ℕ) (source : Option String) :
    CoefAgree time.shape H (synthCoeffsGsm env m time.data nmax source) (synthCoeffsGsm env m ((indices H).map time.at) nmax source) := by
  have key : ∀ (k : ℕ) (f : ℝ → ℕ → ℝ), CoefAgree time.shape H (.ok (k, time.data.map f)) (.ok (k, ((indices H).map time.at).map f)) := by
    intro k f
    refine Or.inr ⟨k, fun i => f (time.get i), ?_, ?_⟩
    · simp only [Arr.data, List.map_map]; rfl
    · simp only [List.map_map]; rfl
  unfold synthCoeffsGsm
  cases m.gsm with
  | none => exact Or.inl ⟨_, rfl, rfl⟩
  | some g =>
    simp only
    cases m.static with
    | none => exact Or.inl ⟨_, rfl, rfl⟩
    | some _ =>
      simp only [bind, Except.bind, pure, Except.pure, throw, throwThe, MonadExceptOf.throw]
      rw [nonempty_congr _ _ (times_mem h h0)]
      cases nonempty ((indices H).map time.at) with
      | error e => exact Or.inl ⟨e, rfl, rfl⟩
      | ok _ =>
        simp only
        cases dipoleAssert env.gsmFile.dipole env.dipole with
        | error e => exact Or.inl ⟨e, rfl, rfl⟩
        | ok _ =>
          simp only
          by_cases h1 : source.getD "external" = "external"
          · simp only [if_pos h1]
            by_cases h2 : env.gsmFile.cols ≠ g.dim
            · simp only [if_pos h2]; exact Or.inl ⟨_, rfl, rfl⟩
            · simp only [if_neg h2]; exact key _ _
          · simp only [if_neg h1]
            by_cases h3 : source.getD "external" = "internal"
            · simp only [if_pos h3]
              by_cases h2 : env.gsmFile.cols ≠ g.dim
              · simp only [if_pos h2]; exact Or.inl ⟨_, rfl, rfl⟩
              · simp only [if_neg h2]; exact key _ _
            · simp only [if_neg h3]; exact Or.inl ⟨_, rfl, rfl⟩

theorem addArr_agrees (hG : Into G H) (a b : Arr Val) (ha : a.shape = G) (hb : b.shape = G) :
    Agrees G H (addArr a b) (.ok (addFields ((indices H).map a.at) ((indices H).map b.at))) := by
  right
  unfold addArr
  obtain ⟨c, h1, h2, h3⟩ := map2_into Val.add a b G (by rw [ha]; exact into_refl G) (by rw [hb]; exact into_refl G)
  have hs : c.shape = G := by
    unfold map2 at h1
    rw [ha, hb, bcast_self (into_refl G)] at h1
    cases h1
    rfl
  refine ⟨c, by rw [h1]; rfl, hs, ?_⟩
  unfold addFields
  rw [List.zipWith_map, List.zipWith_self]
  congr 1
  apply List.map_congr_left
  intro i _
  rw [h3]

/-- The two parts of the sources 'all'. -/
theorem both_agree (F : Fit grid time radius theta phi theta' phi' G H) (rSurf : ℝ) (A1 L1 A2 L2 : Except Error (ℕ × List (ℕ → ℝ)))
    (h1 : CoefAgree time.shape H A1 L1) (h2 : CoefAgree time.shape H A2 L2) :
    Agrees G H (do
        let ce ← A1
        let ci ← A2
        let be ← fieldOfArr rSurf time radius theta phi "external" grid ce
        let bi ← fieldOfArr rSurf time radius theta phi "internal" grid ci
        addArr be bi)
      (do
        let ce ← L1
        let ci ← L2
        let be ← fieldOf rSurf ((indices H).map (ptAt time radius theta' phi')) "external" ce
        let bi ← fieldOf rSurf ((indices H).map (ptAt time radius theta' phi')) "internal" ci
        return addFields be bi) := by
  rcases h1 with ⟨e, a1, a2⟩ | ⟨k1, Q1, a1, a2⟩
  · rw [a1, a2]; exact Or.inl ⟨e, rfl, rfl⟩
  · rcases h2 with ⟨e, b1, b2⟩ | ⟨k2, Q2, b1, b2⟩
    · rw [a1, a2, b1, b2]; exact Or.inl ⟨e, rfl, rfl⟩
    · rw [a1, a2, b1, b2]
      simp only [bind, Except.bind]
      rcases fieldOfArr_agrees F rSurf "external" k1 Q1 with ⟨e, c1, c2⟩ | ⟨B1, c1, c2, c3⟩
      · rw [c1, c2]; exact Or.inl ⟨e, rfl, rfl⟩
      · rcases fieldOfArr_agrees F rSurf "internal" k2 Q2 with ⟨e, d1, d2⟩ | ⟨B2, d1, d2, d3⟩
        · rw [c1, c3, d1, d2]; exact Or.inl ⟨e, rfl, rfl⟩
        · rw [c1, c3, d1, d3]
          exact addArr_agrees F.into B1 B2 c2 d2

theorem one_agrees (F : Fit grid time radius theta phi theta' phi' G H) (rSurf : ℝ) (source : String) (A L : Except Error (ℕ × List (ℕ → ℝ)))
    (h : CoefAgree time.shape H A L) :
    Agrees G H (do let c ← A; fieldOfArr rSurf time radius theta phi source grid c)
      (do let c ← L; fieldOf rSurf ((indices H).map (ptAt time radius theta' phi')) source c) := by
  rcases h with ⟨e, a1, a2⟩ | ⟨k, Q, a1, a2⟩
  · rw [a1, a2]; exact Or.inl ⟨e, rfl, rfl⟩
  · rw [a1, a2]; exact fieldOfArr_agrees F rSurf source k Q

theorem Fit.time_into (F : Fit grid time radius theta phi theta' phi' G H) : Into time.shape H :=
  into_trans (broadcast_into F.shape _ (by simp)) F.into

theorem pts_time : ((indices H).map (ptAt time radius theta' phi')).map Pt.time = (indices H).map time.at := by
  rw [List.map_map]; rfl

theorem gsm_agrees (F : Fit grid time radius theta phi theta' phi' G H) (env : Env) (m : Chaos) (nmax : Option ℕ) (source : Option String) :
    Agrees G H (valuesGsm env m time radius theta phi nmax source grid)
      (synthValuesGsm env m ((indices H).map (ptAt time radius theta' phi')) nmax source) := by
  have hrows := fun s => gsm_rows env m F.time_into F.pos nmax s
  unfold valuesGsm synthValuesGsm
  simp only [pts_time]
  by_cases h1 : source.getD "all" = "all"
  · rw [if_pos h1, if_pos h1]
    exact both_agree F env.rSurf _ _ _ _ (hrows _) (hrows _)
  · rw [if_neg h1, if_neg h1]
    by_cases h2 : source.getD "all" = "external" ∨ source.getD "all" = "internal"
    · rw [if_pos h2, if_pos h2]
      exact one_agrees F env.rSurf _ _ _ (hrows _)
    · rw [if_neg h2, if_neg h2]
      exact Or.inl ⟨_, rfl, rfl⟩

/-- RC values given as an array, as values for the points. -/
def rcList (H : List ℕ) (rc : Option (Arr ℝ)) : Option (List ℝ) := rc.map fun r => (indices H).map r.at

theorem bcast_right {s t : List ℕ} (h : Into s t) : bcast s t = some t := by
  obtain ⟨r, hr, hi⟩ := bcastRev_of_into h (into_refl t)
  have h1 : bcast s t = some r.reverse := by
    unfold bcast
    rw [hr]; rfl
  have h2 := (bcast_into h1).2
  have h3 : Into r.reverse t := by
    unfold Into
    rw [List.reverse_reverse]
    exact hi
  rw [h1, into_antisymm h3 h2]

theorem rcArg_ok (rc : Option (Arr ℝ)) (h : ∀ r ∈ rc, Into r.shape time.shape) : rcArg time rc = .ok (rcList time.shape rc) := by
  cases rc with
  | none => rfl
  | some r =>
    show (if bcast r.shape time.shape = some time.shape then Except.ok (some ((indices time.shape).map r.at)) else Except.error Error.valueError) = _
    rw [if_pos (bcast_right (h r rfl))]
    rfl

/-- RC values for the array of times and for the list of points. -/
theorem rc_agree (f : RcFile) (source : String) (h : Into time.shape H) (h0 : 0 ∉ H) (rc : Option (Arr ℝ)) (hrc : ∀ r ∈ rc, Into r.shape time.shape) :
    (∃ e, rcValues f source time.data (rcList time.shape rc) = .error e ∧ rcValues f source ((indices H).map time.at) (rcList H rc) = .error e) ∨
    ∃ ρ : List ℕ → ℝ, rcValues f source time.data (rcList time.shape rc) = .ok ((indices time.shape).map ρ) ∧
      rcValues f source ((indices H).map time.at) (rcList H rc) = .ok ((indices H).map fun i => ρ (proj time.shape i)) := by
  cases rc with
  | none =>
    simp only [rcList, Option.map_none, rcValues]
    unfold rcFromFile
    cases rcColumn f source with
    | error e => exact Or.inl ⟨e, rfl, rfl⟩
    | ok y =>
      simp only [bind, Except.bind, pure, Except.pure, throw, throwThe, MonadExceptOf.throw]
      have hany : (time.data.any fun t => decide (t < PPoly.first f.time) || decide (PPoly.last f.time < t)) =
          (((indices H).map time.at).any fun t => decide (t < PPoly.first f.time) || decide (PPoly.last f.time < t)) := by
        rw [Bool.eq_iff_iff, List.any_eq_true, List.any_eq_true]
        simp only [times_mem h h0]
      rw [hany]
      by_cases hb : (((indices H).map time.at).any fun t => decide (t < PPoly.first f.time) || decide (PPoly.last f.time < t)) = true
      · simp only [if_pos hb]
        exact Or.inl ⟨_, rfl, rfl⟩
      · simp only [if_neg hb]
        right
        refine ⟨fun i => interp f.time y (time.get i), ?_, ?_⟩
        · simp only [Arr.data, List.map_map]; rfl
        · simp only [List.map_map]; rfl
  | some r =>
    right
    have hr := hrc r rfl
    refine ⟨r.at, ?_, ?_⟩
    · simp only [rcList, Option.map_some, rcValues, Arr.data, List.length_map, if_true]
    · simp only [rcList, Option.map_some, rcValues, List.length_map, if_true]
      congr 1
      apply List.map_congr_left
      intro i _
      rw [at_proj r hr]

theorem sm_rows (env : Env) (m : Chaos) (h : Into time.shape H) (h0 : 0 ∉ H) (nmax : Option ℕ) (source : Option String) (rc : Option (Arr ℝ))
    (hrc : ∀ r ∈ rc, Into r.shape time.shape) :
    CoefAgree time.shape H (synthCoeffsSm env m time.data nmax source (rcList time.shape rc))
      (synthCoeffsSm env m ((indices H).map time.at) nmax source (rcList H rc)) := by
  have key : ∀ (k : ℕ) (f : ℝ → ℝ → ℕ → ℝ) (ρ : List ℕ → ℝ), CoefAgree time.shape H (.ok (k, List.zipWith f time.data ((indices time.shape).map ρ)))
      (.ok (k, List.zipWith f ((indices H).map time.at) ((indices H).map fun i => ρ (proj time.shape i)))) := by
    intro k f ρ
    refine Or.inr ⟨k, fun i => f (time.get i) (ρ i), ?_, ?_⟩
    · simp only [Arr.data, List.zipWith_map, List.zipWith_self]
    · simp only [List.zipWith_map, List.zipWith_self]; rfl
  unfold synthCoeffsSm
  cases m.sm with
  | none => exact Or.inl ⟨_, rfl, rfl⟩
  | some g =>
    simp only
    cases m.delta with
    | none => exact Or.inl ⟨_, rfl, rfl⟩
    | some d =>
      simp only [bind, Except.bind, pure, Except.pure, throw, throwThe, MonadExceptOf.throw]
      rw [nonempty_congr _ _ (times_mem h h0)]
      cases nonempty ((indices H).map time.at) with
      | error e => exact Or.inl ⟨e, rfl, rfl⟩
      | ok _ =>
        simp only
        cases dipoleAssert env.smFile.dipole env.dipole with
        | error e => exact Or.inl ⟨e, rfl, rfl⟩
        | ok _ =>
          simp only
          rcases rc_agree env.rcFile (source.getD "external") h h0 rc hrc with ⟨e, r1, r2⟩ | ⟨ρ, r1, r2⟩
          · rw [r1, r2]; exact Or.inl ⟨e, rfl, rfl⟩
          · rw [r1, r2]
            simp only
            by_cases h1 : source.getD "external" = "external"
            · simp only [if_pos h1]
              by_cases h2 : (Index.nmaxOfDim g.dim).toNat = 0
              · simp only [if_pos h2]; exact Or.inl ⟨_, rfl, rfl⟩
              · simp only [if_neg h2]
                split_ifs
                · exact Or.inl ⟨_, rfl, rfl⟩
                · exact key _ _ _
            · simp only [if_neg h1]
              by_cases h3 : source.getD "external" = "internal"
              · simp only [if_pos h3]
                by_cases h2 : (Index.nmaxOfDim g.dim).toNat = 0
                · simp only [if_pos h2]; exact Or.inl ⟨_, rfl, rfl⟩
                · simp only [if_neg h2]
                  split_ifs
                  · exact Or.inl ⟨_, rfl, rfl⟩
                  · exact key _ _ _
              · simp only [if_neg h3]; exact Or.inl ⟨_, rfl, rfl⟩

theorem sm_agrees (F : Fit grid time radius theta phi theta' phi' G H) (env : Env) (m : Chaos) (rcE rcI : Option (Arr ℝ))
    (hE : ∀ r ∈ rcE, Into r.shape time.shape) (hI : ∀ r ∈ rcI, Into r.shape time.shape) (nmax : Option ℕ) (source : Option String) :
    Agrees G H (valuesSm env m time radius theta phi rcE rcI nmax source grid)
      (synthValuesSm env m ((indices H).map (ptAt time radius theta' phi')) (rcList H rcE) (rcList H rcI) nmax source) := by
  have hrows := fun s rc h => sm_rows env m F.time_into F.pos nmax s rc h
  unfold valuesSm synthValuesSm
  simp only [pts_time]
  by_cases h1 : source.getD "all" = "all"
  · rw [if_pos h1, if_pos h1, rcArg_ok rcE hE, rcArg_ok rcI hI]
    exact both_agree F env.rSurf _ _ _ _ (hrows _ _ hE) (hrows _ _ hI)
  · rw [if_neg h1, if_neg h1]
    by_cases h2 : source.getD "all" = "external" ∨ source.getD "all" = "internal"
    · rw [if_pos h2, if_pos h2]
      by_cases h3 : source.getD "all" = "external"
      · rw [if_pos h3, if_pos h3, rcArg_ok rcE hE]
        exact one_agrees F env.rSurf _ _ _ (hrows _ _ hE)
      · rw [if_neg h3, if_neg h3, rcArg_ok rcI hI]
        exact one_agrees F env.rSurf _ _ _ (hrows _ _ hI)
    · rw [if_neg h2, if_neg h2]
      exact Or.inl ⟨_, rfl, rfl⟩

/-- `B += ...` with a part that fits into the shape. -/
theorem addIf_agrees (h0 : 0 ∉ H) (c : Bool) (B : Arr Val) (hB : B.shape = H) (X : Except Error (Arr Val)) (Y : Except Error (List Val)) (G : List ℕ) (hG : Into G H)
    (h : Agrees G H X Y) : Agrees H H (addIfArr c B X) (addIf c ((indices H).map B.at) Y) := by
  unfold addIfArr addIf
  cases c with
  | false => exact Or.inr ⟨B, rfl, hB, rfl⟩
  | true =>
    simp only [if_true]
    rcases h with ⟨e, h1, h2⟩ | ⟨a, h1, h2, h3⟩
    · rw [h1, h2]; exact Or.inl ⟨e, rfl, rfl⟩
    · rw [h1, h3]
      simp only
      rw [if_pos (by rw [hB, h2]; exact bcast_self hG)]
      refine Or.inr ⟨_, rfl, hB, ?_⟩
      unfold addFields
      rw [List.zipWith_map, List.zipWith_self]
      congr 1
      apply List.map_congr_left
      intro i hi
      have hi := mem_indices.1 hi
      unfold Arr.at
      simp only
      rw [hB, proj_valid hi]

end ChaosMagPy.ChaosArr
