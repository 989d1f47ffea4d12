import Verif.Lemmas.DesignArr
import Verif.Props.Broadcast
import Verif.Props.DesignMatrix
/-!
# C78: arrays in `design_gauss` and `design_matrix`
-/
namespace ChaosMagPy.DesignArr
open ChaosMagPy.NumPy
open ChaosMagPy.Synth (Error Source)
open ChaosMagPy.SynthArr (checkColat_congr mem_data_at)

/-- **C78** (broadcasting). If the shapes of radius, colatitude and longitude can be broadcast to a non-empty shape `G`, then `design_gauss` has the same
outcome as for the list of all points of the broadcast arrays: the same exception, or three arrays of the shape `G` with one more axis for the coefficients,
where the row at an index is the row for the point that belongs to it. -/
theorem C78_gauss (rsurf : ℝ) (radius theta phi : Arr ℝ) (G : List ℕ) (hG : broadcast [radius.shape, theta.shape, phi.shape] = some G) (h0 : 0 ∉ G)
    (nmax : ℤ) (nmin mmax : Option ℤ) (source : Option String) :
    (∃ e, designGauss rsurf radius theta phi nmax nmin mmax source = .error e ∧
      Synth.designGauss rsurf ((indices G).map fun i => (radius.at i, theta.at i, phi.at i)) nmax nmin mmax source = .error e) ∨
    ∃ A dim, designGauss rsurf radius theta phi nmax nmin mmax source = .ok A ∧ A.1.shape = G ++ [dim] ∧ A.2.1.shape = G ++ [dim] ∧ A.2.2.shape = G ++ [dim] ∧
      Synth.designGauss rsurf ((indices G).map fun i => (radius.at i, theta.at i, phi.at i)) nmax nmin mmax source =
        .ok (dim, (indices G).map fun i => (fun j => A.1.get (i ++ [j]), fun j => A.2.1.get (i ++ [j]), fun j => A.2.2.get (i ++ [j]))) := by
  have hi := broadcast_into hG
  have h1 : Into radius.shape G := hi _ (by simp)
  have h2 : Into theta.shape G := hi _ (by simp)
  have h3 : Into phi.shape G := hi _ (by simp)
  have hcol : Synth.checkColat theta.data =
      Synth.checkColat (((indices G).map fun i => (radius.at i, theta.at i, phi.at i)).map (fun p => p.2.1)) := by
    apply checkColat_congr
    intro t
    rw [mem_data_at theta h2 h0, List.map_map]
    rfl
  unfold designGauss Synth.designGauss
  simp only [bind, Except.bind, pure, Except.pure, throw, throwThe, MonadExceptOf.throw]
  rw [show broadcast [(radius.map fun r => r / rsurf).shape, theta.shape, phi.shape] = some G from hG]
  simp only [hcol]
  cases hp : Synth.checkColat (((indices G).map fun i => (radius.at i, theta.at i, phi.at i)).map (fun p => p.2.1)) with
  | error e => exact Or.inl ⟨e, rfl, rfl⟩
  | ok poles =>
    simp only
    by_cases c1 : nmax > 0
    swap
    · rw [if_pos c1, if_pos c1]; exact Or.inl ⟨_, rfl, rfl⟩
    rw [if_neg (not_not.2 c1), if_neg (not_not.2 c1)]
    by_cases c2 : nmin.getD 1 ≤ nmax
    swap
    · simp only [if_pos c2]; exact Or.inl ⟨_, rfl, rfl⟩
    simp only [if_neg (not_not.2 c2)]
    by_cases c3 : nmin.getD 1 > 0
    swap
    · simp only [if_pos c3]; exact Or.inl ⟨_, rfl, rfl⟩
    simp only [if_neg (not_not.2 c3)]
    by_cases c4 : mmax.getD nmax ≤ nmax
    swap
    · simp only [if_pos c4]; exact Or.inl ⟨_, rfl, rfl⟩
    simp only [if_neg (not_not.2 c4)]
    by_cases c5 : mmax.getD nmax ≥ 0
    swap
    · simp only [if_pos c5]; exact Or.inl ⟨_, rfl, rfl⟩
    simp only [if_neg (not_not.2 c5)]
    cases hs : Synth.resolveSource source with
    | error e => exact Or.inl ⟨e, rfl, rfl⟩
    | ok src =>
      simp only
      rcases loops_sim (G := G) (dim := Synth.designDim (nmin.getD 1) nmax (mmax.getD nmax)) rsurf radius theta phi src poles (nmin.getD 1).toNat nmax.toNat
        (by omega) (mmax.getD nmax) h1 h2 h3 with ⟨A, k1, k2, k3, k4, k5⟩ | ⟨k1, k2⟩
      · right
        refine ⟨A, _, k1, k2, k3, k4, ?_⟩
        have : ((indices G).map fun i => (radius.at i, theta.at i, phi.at i)).mapM (fun p =>
            Synth.designPoint rsurf src poles (Synth.designDim (nmin.getD 1) nmax (mmax.getD nmax)) (nmin.getD 1).toNat nmax.toNat (mmax.getD nmax) p.1 p.2.1 p.2.2) =
            .ok ((indices G).map fun i => (fun j => A.1.get (i ++ [j]), fun j => A.2.1.get (i ++ [j]), fun j => A.2.2.get (i ++ [j]))) := by
          rw [Synth.mapM_ok, List.forall₂_map_left_iff, List.forall₂_map_right_iff, List.forall₂_same]
          intro i _
          exact k5 i
        rw [this]
      · left
        refine ⟨.indexError, k1, ?_⟩
        have : ((indices G).map fun i => (radius.at i, theta.at i, phi.at i)).mapM (fun p =>
            Synth.designPoint rsurf src poles (Synth.designDim (nmin.getD 1) nmax (mmax.getD nmax)) (nmin.getD 1).toNat nmax.toNat (mmax.getD nmax) p.1 p.2.1 p.2.2) =
            .error .indexError := by
          apply Synth.mapM_error
          · simpa using indices_ne_nil h0
          · intro p hp
            obtain ⟨i, _, rfl⟩ := List.mem_map.1 hp
            exact k2 i
        rw [this]

/-- **C78** (product). Whenever `design_gauss` returns matrices, their product with any vector of as many coefficients as they have columns is the result of
`synth_values` with the same arguments, in shape and in all values. -/
theorem C78_product (rsurf : ℝ) (ha : rsurf ≠ 0) (radius theta phi : Arr ℝ) (G : List ℕ) (hG : broadcast [radius.shape, theta.shape, phi.shape] = some G)
    (h0 : 0 ∉ G) (hr : ∀ i, Valid radius.shape i → radius.get i ≠ 0) (nmax : ℤ) (nmin mmax : Option ℤ) (source : Option String)
    (A : Arr ℝ × Arr ℝ × Arr ℝ) (hA : designGauss rsurf radius theta phi nmax nmin mmax source = .ok A) :
    ∃ dim, A.1.shape = G ++ [dim] ∧ A.2.1.shape = G ++ [dim] ∧ A.2.2.shape = G ++ [dim] ∧
    ∀ c : Arr ℝ, c.shape = [dim] → ∃ B M1 M2 M3, SynthArr.synthValues rsurf c radius theta phi nmin (some nmax) mmax source none = .ok B ∧
      matVec A.1 c = .ok M1 ∧ matVec A.2.1 c = .ok M2 ∧ matVec A.2.2 c = .ok M3 ∧
      B.1.shape = G ∧ B.2.1.shape = G ∧ B.2.2.shape = G ∧ M1.shape = G ∧ M2.shape = G ∧ M3.shape = G ∧
      ∀ i, Valid G i → B.1.get i = M1.get i ∧ B.2.1.get i = M2.get i ∧ B.2.2.get i = M3.get i := by
  rcases C78_gauss rsurf radius theta phi G hG h0 nmax nmin mmax source with ⟨e, he, -⟩ | ⟨A', dim, k1, k2, k3, k4, k5⟩
  · rw [hA] at he; cases he
  rw [hA] at k1
  cases k1
  refine ⟨dim, k2, k3, k4, fun c hc => ?_⟩
  have hG' : broadcast [radius.shape, theta.shape, phi.shape, []] = some G := by
    unfold broadcast at hG ⊢
    simp only [List.foldlM_cons, List.foldlM_nil, bind, Option.bind, pure] at hG ⊢
    cases h1 : bcast [] radius.shape with
    | none => rw [h1] at hG; cases hG
    | some s1 =>
      rw [h1] at hG
      simp only at hG ⊢
      cases h2 : bcast s1 theta.shape with
      | none => rw [h2] at hG; cases hG
      | some s2 =>
        rw [h2] at hG
        simp only at hG ⊢
        cases h3 : bcast s2 phi.shape with
        | none => rw [h3] at hG; cases hG
        | some s3 =>
          rw [h3] at hG
          simp only at hG ⊢
          cases hG
          rw [SynthArr.bcast_nil_right]
  have hi := broadcast_into hG
  have h1 : Into radius.shape G := hi _ (by simp)
  obtain ⟨-, hprod⟩ := Synth.C17_design_product rsurf ha ((indices G).map fun i => (⟨radius.at i, theta.at i, phi.at i, fun k => c.get [k]⟩ : Synth.Point)) (by
      intro p hp
      obtain ⟨i, hi', rfl⟩ := List.mem_map.1 hp
      exact hr _ (proj_isValid h1 (mem_indices.1 hi'))) nmax nmin mmax source dim _ (by
      rw [List.map_map]
      exact k5)
  have hs := SynthArr.C61_broadcast rsurf c radius theta phi [] dim (by simpa using hc) G hG' h0 nmin (some nmax) mmax source
  have hs' : SynthArr.SameOutcome (SynthArr.synthValues rsurf c radius theta phi nmin (some nmax) mmax source none) G
      (Synth.synthValues rsurf dim ((indices G).map fun i => (⟨radius.at i, theta.at i, phi.at i, fun k => c.get [k]⟩ : Synth.Point)) nmin (some nmax) mmax source) := hs
  rcases hs' with ⟨e, -, he⟩ | ⟨B, L, b1, b2, b3, b4, b5, b6, b7, b8⟩
  · rw [hprod] at he; cases he
  rw [hprod] at b2
  have hL := Except.ok.inj b2
  have hmv : ∀ M : Arr ℝ, M.shape = G ++ [dim] → matVec M c = .ok ⟨G, fun i => ∑ k ∈ Finset.range dim, M.get (i ++ [k]) * c.get [k]⟩ := by
    intro M hM
    unfold matVec
    rw [hM]
    simp only [List.getLast?_append, List.getLast?_singleton, Option.some_or, List.dropLast_concat]
    rw [if_pos hc]
  refine ⟨B, _, _, _, b1, hmv _ k2, hmv _ k3, hmv _ k4, b3, b4, b5, rfl, rfl, rfl, fun i hi' => ?_⟩
  rw [List.zipWith_map_left, List.zipWith_map_right, List.zipWith_self] at hL
  rw [← hL, List.map_map] at b6 b7 b8
  unfold Arr.data at b6 b7 b8
  rw [b3] at b6
  rw [b4] at b7
  rw [b5] at b8
  have hm := mem_indices.2 hi'
  exact ⟨List.map_inj_left.1 b6 i hm, List.map_inj_left.1 b7 i hm, List.map_inj_left.1 b8 i hm⟩

/-- **C78** (refused). Shapes that do not fit together raise ValueError whatever the other arguments are; so does an empty array of colatitudes. -/
theorem C78_refused (rsurf : ℝ) (radius theta phi : Arr ℝ) (nmax : ℤ) (nmin mmax : Option ℤ) (source : Option String)
    (h : broadcast [radius.shape, theta.shape, phi.shape] = none ∨ theta.data = []) :
    designGauss rsurf radius theta phi nmax nmin mmax source = .error .valueError := by
  unfold designGauss
  simp only [bind, Except.bind]
  cases hb : broadcast [radius.shape, theta.shape, phi.shape] with
  | none =>
    rw [show broadcast [(radius.map fun r => r / rsurf).shape, theta.shape, phi.shape] = none from hb]
    rfl
  | some G =>
    rw [show broadcast [(radius.map fun r => r / rsurf).shape, theta.shape, phi.shape] = some G from hb]
    rcases h with h | h
    · rw [hb] at h; cases h
    · simp only [h]
      rfl

/-- The three matrices agree with a list of rows. -/
def SameMatrices (X : Mat × Mat × Mat) (N cols : ℕ) (rows : List ((ℕ → Option ℝ) × (ℕ → Option ℝ) × (ℕ → Option ℝ))) : Prop :=
  X.1.rows = N ∧ X.2.1.rows = N ∧ X.2.2.rows = N ∧ X.1.cols = cols ∧ X.2.1.cols = cols ∧ X.2.2.cols = cols ∧ rows.length = N ∧
  ∀ (i : ℕ) (R : (ℕ → Option ℝ) × (ℕ → Option ℝ) × (ℕ → Option ℝ)), rows[i]? = some R →
    ∀ j, X.1.get i j = R.1 j ∧ X.2.1.get i j = R.2.1 j ∧ X.2.2.get i j = R.2.2 j

theorem fill_row (A : Arr ℝ) (nseg ctdep cols : ℕ) (coll : ℕ → ℕ → Option ℝ) (cstatic : ℕ) (hcols : cols = (nseg - 1) * ctdep + cstatic) (i : ℕ) :
    (addStatic A ctdep cols (fillMatrix A nseg ctdep coll)) i = BSpline.designRow nseg ctdep cstatic (fun k => A.get [i, k]) (coll i) := by
  have key : ∀ (l : List ℕ) (s : ℕ × (ℕ → ℕ → Option ℝ)) (t : (ℕ → Option ℝ) × ℕ), s.1 = t.2 → s.2 i = t.1 →
      (l.foldl (fun s coeff => (s.1 + nseg, setCols s.2 s.1 nseg fun i j => (coll i j).map fun c => A.get [i, coeff] * c)) s).1 =
        (l.foldl (fun (s : (ℕ → Option ℝ) × ℕ) coeff => (BSpline.setBlock s.1 s.2 nseg (fun k => (coll i k).map fun v => A.get [i, coeff] * v), s.2 + nseg)) t).2 ∧
      (l.foldl (fun s coeff => (s.1 + nseg, setCols s.2 s.1 nseg fun i j => (coll i j).map fun c => A.get [i, coeff] * c)) s).2 i =
        (l.foldl (fun (s : (ℕ → Option ℝ) × ℕ) coeff => (BSpline.setBlock s.1 s.2 nseg (fun k => (coll i k).map fun v => A.get [i, coeff] * v), s.2 + nseg)) t).1 := by
    intro l
    induction l with
    | nil => exact fun s t h1 h2 => ⟨h1, h2⟩
    | cons c l ih =>
      intro s t h1 h2
      simp only [List.foldl_cons]
      apply ih
      · simp only [h1]
      · funext j
        simp only [setCols, BSpline.setBlock, h1, ← h2]
  obtain ⟨k1, k2⟩ := key (List.range ctdep) (0, fun _ _ => none) (fun _ => none, 0) rfl rfl
  unfold BSpline.designRow addStatic fillMatrix
  simp only
  funext j
  simp only [setCols, BSpline.setBlock]
  rw [k1, ← k2, hcols]

theorem indices_vector (N : ℕ) : indices [N] = (List.range N).map fun k => [k] := by
  simp only [indices, List.map_cons, List.map_nil]
  induction (List.range N) with
  | nil => rfl
  | cons a l ih => simp [List.flatMap_cons, ih]

/-- **C78** (`design_matrix`). For four arrays of the shape `(N,)`, `design_matrix` has the outcome of C25 for the list of the `N` data: the same exception, or
three matrices with one row per datum. -/
theorem C78_matrix (rsurf : ℝ) (knots : List ℝ) (order ntdep : ℕ) (time radius theta phi : Arr ℝ) (N : ℕ) (ht : time.shape = [N]) (hr : radius.shape = [N])
    (hth : theta.shape = [N]) (hp : phi.shape = [N]) (nstatic : Option ℕ) (source : Option String) :
    (∃ e, designMatrix rsurf knots order ntdep time radius theta phi nstatic source = .error e ∧
      BSpline.designMatrix rsurf knots order ntdep ((List.range N).map fun k => ⟨time.get [k], radius.get [k], theta.get [k], phi.get [k]⟩) nstatic source = .error e) ∨
    ∃ X cols rows, designMatrix rsurf knots order ntdep time radius theta phi nstatic source = .ok X ∧
      BSpline.designMatrix rsurf knots order ntdep ((List.range N).map fun k => ⟨time.get [k], radius.get [k], theta.get [k], phi.get [k]⟩) nstatic source = .ok (cols, rows) ∧
      SameMatrices X N cols rows := by
  have hdth : theta.data = (List.range N).map fun k => theta.get [k] := by
    unfold Arr.data; rw [hth, indices_vector, List.map_map]; rfl
  have hdt : time.data = (List.range N).map fun k => time.get [k] := by
    unfold Arr.data; rw [ht, indices_vector, List.map_map]; rfl
  unfold designMatrix BSpline.designMatrix
  simp only [bind, Except.bind, pure, Except.pure, throw, throwThe, MonadExceptOf.throw, List.map_map]
  rw [if_neg (by rw [ht, hr, hth, hp]; simp), if_neg (by rw [ht]; simp), hdth, hdt]
  have e1 : (BSpline.Datum.theta ∘ fun k => (⟨time.get [k], radius.get [k], theta.get [k], phi.get [k]⟩ : BSpline.Datum)) = fun k => theta.get [k] := rfl
  have e2 : (BSpline.Datum.time ∘ fun k => (⟨time.get [k], radius.get [k], theta.get [k], phi.get [k]⟩ : BSpline.Datum)) = fun k => time.get [k] := rfl
  rw [e1, e2]
  cases hm : Synth.aminmax ((List.range N).map fun k => theta.get [k]) with
  | error e => exact Or.inl ⟨e, rfl, rfl⟩
  | ok b =>
    obtain ⟨lo, hi⟩ := b
    simp only
    by_cases c1 : lo > 0 ∧ hi < 180
    swap
    · rw [if_pos c1, if_pos c1]; exact Or.inl ⟨_, rfl, rfl⟩
    rw [if_neg (not_not.2 c1), if_neg (not_not.2 c1)]
    have hN : 0 < N := by
      rcases Nat.eq_zero_or_pos N with rfl | h
      · cases hm
      · exact h
    have hG : broadcast [radius.shape, theta.shape, phi.shape] = some [N] := by
      rw [hr, hth, hp]
      simp [broadcast, bcast, bcastRev]
    have hg := C78_gauss rsurf radius theta phi [N] hG (by simp; omega) ((nstatic.getD ntdep : ℕ) : ℤ) none none (some (source.getD "internal"))
    have hpts : ((indices [N]).map fun i => (radius.at i, theta.at i, phi.at i)) =
        (List.range N).map ((fun p : BSpline.Datum => (p.radius, p.theta, p.phi)) ∘ fun k => ⟨time.get [k], radius.get [k], theta.get [k], phi.get [k]⟩) := by
      rw [indices_vector, List.map_map]
      apply List.map_congr_left
      intro k hk
      have hv : Valid [N] [k] := by simpa [Valid] using hk
      simp only [Function.comp_apply]
      rw [at_valid radius [k] (by rw [hr]; exact hv), at_valid theta [k] (by rw [hth]; exact hv), at_valid phi [k] (by rw [hp]; exact hv)]
    rw [hpts] at hg
    have hlen : (BSpline.collocMatrix ((List.range N).map fun k => time.get [k]) knots order none).2.length = N := by
      unfold BSpline.collocMatrix
      simp
    generalize BSpline.collocMatrix ((List.range N).map fun k => time.get [k]) knots order none = C at hlen
    have hmain : ∀ (A : Arr ℝ × Arr ℝ × Arr ℝ) (cst : ℕ),
        SameMatrices
          (⟨time.shape.headD 0, (C.1 - 1) * (ntdep * (ntdep + 2)) + cst, addStatic A.1 (ntdep * (ntdep + 2)) ((C.1 - 1) * (ntdep * (ntdep + 2)) + cst)
              (fillMatrix A.1 C.1 (ntdep * (ntdep + 2)) fun i j => (C.2[i]?).bind fun row => row j)⟩,
           ⟨time.shape.headD 0, (C.1 - 1) * (ntdep * (ntdep + 2)) + cst, addStatic A.2.1 (ntdep * (ntdep + 2)) ((C.1 - 1) * (ntdep * (ntdep + 2)) + cst)
              (fillMatrix A.2.1 C.1 (ntdep * (ntdep + 2)) fun i j => (C.2[i]?).bind fun row => row j)⟩,
           ⟨time.shape.headD 0, (C.1 - 1) * (ntdep * (ntdep + 2)) + cst, addStatic A.2.2 (ntdep * (ntdep + 2)) ((C.1 - 1) * (ntdep * (ntdep + 2)) + cst)
              (fillMatrix A.2.2 C.1 (ntdep * (ntdep + 2)) fun i j => (C.2[i]?).bind fun row => row j)⟩)
          N ((C.1 - 1) * (ntdep * (ntdep + 2)) + cst)
          (List.zipWith (fun (a : (ℕ → ℝ) × (ℕ → ℝ) × (ℕ → ℝ)) c => (BSpline.designRow C.1 (ntdep * (ntdep + 2)) cst a.1 c,
            BSpline.designRow C.1 (ntdep * (ntdep + 2)) cst a.2.1 c, BSpline.designRow C.1 (ntdep * (ntdep + 2)) cst a.2.2 c))
            ((indices [N]).map fun i => (fun j => A.1.get (i ++ [j]), fun j => A.2.1.get (i ++ [j]), fun j => A.2.2.get (i ++ [j]))) C.2) := by
      intro A cst
      have hN' : time.shape.headD 0 = N := by rw [ht]; rfl
      refine ⟨hN', hN', hN', rfl, rfl, rfl, by simp [indices_vector, hlen], ?_⟩
      intro i R hR j
      rw [List.getElem?_zipWith, indices_vector, List.map_map] at hR
      have hiN : i < N := by
        by_contra hc
        rw [List.getElem?_eq_none (by simp; omega)] at hR
        simp at hR
      have hrow : C.2[i]? = some (C.2[i]'(by omega)) := List.getElem?_eq_getElem _
      rw [hrow] at hR
      simp only [List.getElem?_map, List.getElem?_range hiN, Option.map_some] at hR
      have hR' := Option.some.inj hR
      subst hR'
      have hc : (fun j => (C.2[i]?).bind fun row => row j) = C.2[i]'(by omega) := by
        funext j
        rw [hrow]
        rfl
      have f := fun (M : Arr ℝ) => fill_row M C.1 (ntdep * (ntdep + 2)) _ (fun i j => (C.2[i]?).bind fun row => row j) cst rfl i
      simp only [hc] at f
      refine ⟨?_, ?_, ?_⟩
      · exact congrFun (f A.1) j
      · exact congrFun (f A.2.1) j
      · exact congrFun (f A.2.2) j
    cases nstatic with
    | none =>
      simp only [Option.getD_none] at hg ⊢
      rcases hg with ⟨e, g1, g2⟩ | ⟨A, dim, g1, -, -, -, g2⟩
      · rw [g1, g2]
        exact Or.inl ⟨e, rfl, rfl⟩
      · rw [g1, g2]
        exact Or.inr ⟨_, _, _, rfl, rfl, hmain A _⟩
    | some n =>
      simp only [Option.getD_some] at hg ⊢
      by_cases c2 : n ≠ 0 ∧ n < ntdep
      · simp only [if_pos c2]
        exact Or.inl ⟨_, rfl, rfl⟩
      · simp only [if_neg c2]
        rcases hg with ⟨e, g1, g2⟩ | ⟨A, dim, g1, -, -, -, g2⟩
        · rw [g1, g2]
          exact Or.inl ⟨e, rfl, rfl⟩
        · rw [g1, g2]
          exact Or.inr ⟨_, _, _, rfl, rfl, hmain A _⟩

/-- **C78** (`design_matrix`, shapes). Arrays of different shapes, numbers and arrays with several axes raise AssertionError: nothing is broadcast here. -/
theorem C78_matrix_shapes (rsurf : ℝ) (knots : List ℝ) (order ntdep : ℕ) (time radius theta phi : Arr ℝ) (nstatic : Option ℕ) (source : Option String)
    (h : ¬ ∃ N, time.shape = [N] ∧ radius.shape = [N] ∧ theta.shape = [N] ∧ phi.shape = [N]) :
    designMatrix rsurf knots order ntdep time radius theta phi nstatic source = .error .assertionError := by
  unfold designMatrix
  simp only [bind, Except.bind, pure, Except.pure, throw, throwThe, MonadExceptOf.throw]
  by_cases c1 : time.shape = radius.shape ∧ radius.shape = theta.shape ∧ theta.shape = phi.shape
  · rw [if_neg (not_not.2 c1), if_pos]
    intro hl
    obtain ⟨N, hN⟩ := List.length_eq_one_iff.1 hl
    exact h ⟨N, hN, by rw [← c1.1, hN], by rw [← c1.2.1, ← c1.1, hN], by rw [← c1.2.2, ← c1.2.1, ← c1.1, hN]⟩
  · rw [if_pos c1]

end ChaosMagPy.DesignArr
