import Verif.Props.Coord
/-!
# C36: rotation of vector components
-/
namespace ChaosMagPy.Coord
open ChaosMagPy.Spec

/-- The vector with spherical components `c` (up, south, east) at a point, in the cartesian system of the angles. -/
noncomputable def sphericalVector (theta phi : ℝ) (c : Vec) : Vec := combine (direction theta phi) (south theta phi) (east phi) c

/-- The same vector in space: components `c` at `(theta, phi)` in GEO, `c'` at `(theta', phi')` in the rotated system. -/
def SameVector (b : Base) (theta phi : ℝ) (c : Vec) (theta' phi' : ℝ) (c' : Vec) : Prop :=
  combine b.e1 b.e2 b.e3 (sphericalVector theta' phi' c') = sphericalVector theta phi c

theorem rows_mulVec (b : Base) (v : Vec) : (rows b).mulVec v = ![dot b.e1 v, dot b.e2 v, dot b.e3 v] := by
  funext i
  simp only [Matrix.mulVec, dotProduct, Fin.sum_univ_three, rows, dot]
  fin_cases i <;> rfl

theorem columns_mulVec (b : Base) (v : Vec) : (columns b).mulVec v = combine b.e1 b.e2 b.e3 v := by
  funext i
  simp only [Matrix.mulVec, dotProduct, Fin.sum_univ_three, columns, combine, Matrix.cons_val]
  ring

theorem columns_transpose (b : Base) : (columns b).transpose = rows b := rfl

theorem rows_mul_columns (b : Base) (hb : RightHanded b.e1 b.e2 b.e3) : rows b * columns b = 1 := by
  obtain ⟨h11, h22, h33, h12, h13, h23, _⟩ := hb
  simp only [dot] at h11 h22 h33 h12 h13 h23
  ext i j
  rw [Matrix.mul_apply, Fin.sum_univ_three]
  fin_cases i <;> fin_cases j <;> simp [rows, columns] <;> linarith

theorem rotation_mulVec (theta phi theta' phi' : ℝ) (b : Base) (hb : RightHanded b.e1 b.e2 b.e3) (c : Vec) :
    SameVector b theta phi c theta' phi' ((rotationMatrix theta phi theta' phi' b).mulVec c) := by
  unfold SameVector sphericalVector rotationMatrix
  rw [← Matrix.mulVec_mulVec, ← Matrix.mulVec_mulVec, columns_mulVec, rows_mulVec, rows_mulVec, use_eq, use_eq]
  rw [rh_rows (use_rh theta' phi'), rh_rows hb]

theorem rotation_orthogonal (theta phi theta' phi' : ℝ) (b : Base) (hb : RightHanded b.e1 b.e2 b.e3) :
    (rotationMatrix theta phi theta' phi' b) * (rotationMatrix theta phi theta' phi' b).transpose = 1 ∧
    (rotationMatrix theta phi theta' phi' b).transpose * rotationMatrix theta phi theta' phi' b = 1 := by
  have h1 := rows_mul_columns (usePoint theta phi) (by rw [use_eq]; exact use_rh theta phi)
  have h2 := rows_mul_columns (usePoint theta' phi') (by rw [use_eq]; exact use_rh theta' phi')
  have h3 := rows_mul_columns b hb
  have h1' := mul_eq_one_comm.1 h1
  have : (rotationMatrix theta phi theta' phi' b) * (rotationMatrix theta phi theta' phi' b).transpose = 1 := by
    unfold rotationMatrix
    rw [Matrix.transpose_mul, Matrix.transpose_mul, columns_transpose]
    have e1 : (rows b).transpose = columns b := rfl
    have e2 : (rows (usePoint theta' phi')).transpose = columns (usePoint theta' phi') := rfl
    rw [e1, e2]
    calc rows (usePoint theta' phi') * (rows b * columns (usePoint theta phi)) * (rows (usePoint theta phi) * columns b * columns (usePoint theta' phi'))
        = rows (usePoint theta' phi') * (rows b * (columns (usePoint theta phi) * rows (usePoint theta phi)) * columns b) * columns (usePoint theta' phi') := by
          simp only [Matrix.mul_assoc]
      _ = 1 := by rw [h1', Matrix.mul_one, h3, Matrix.mul_one, h2]
  exact ⟨this, mul_eq_one_comm.1 this⟩

theorem rotation_radial (theta phi theta' phi' : ℝ) (b : Base) (hb : RightHanded b.e1 b.e2 b.e3) (hp : SamePoint b theta phi theta' phi') :
    let R := rotationMatrix theta phi theta' phi' b
    R 0 0 = 1 ∧ R 0 1 = 0 ∧ R 0 2 = 0 ∧ R 1 0 = 0 ∧ R 2 0 = 0 := by
  intro R
  have hcol : R.mulVec ![1, 0, 0] = ![1, 0, 0] := by
    have hv := rotation_mulVec theta phi theta' phi' b hb ![1, 0, 0]
    unfold SameVector at hv
    have e : ∀ t p : ℝ, sphericalVector t p ![1, 0, 0] = direction t p := by
      intro t p
      funext i
      simp [sphericalVector, combine]
    rw [e theta phi, ← hp] at hv
    have h2 := combine_inj hb hv
    rw [← e theta' phi'] at h2
    have h3 := combine_inj (b := ⟨direction theta' phi', south theta' phi', east phi'⟩) (use_rh theta' phi') h2
    exact h3
  have hrow : R.transpose.mulVec ![1, 0, 0] = ![1, 0, 0] := by
    have := (rotation_orthogonal theta phi theta' phi' b hb).2
    calc R.transpose.mulVec ![1, 0, 0] = R.transpose.mulVec (R.mulVec ![1, 0, 0]) := by rw [hcol]
      _ = ![1, 0, 0] := by rw [Matrix.mulVec_mulVec, this, Matrix.one_mulVec]
  have c : ∀ i, R i 0 = (![1, 0, 0] : Vec) i := by
    intro i
    have := congrFun hcol i
    simpa [Matrix.mulVec, dotProduct, Fin.sum_univ_three] using this
  have r : ∀ i, R 0 i = (![1, 0, 0] : Vec) i := by
    intro i
    have := congrFun hrow i
    simpa [Matrix.mulVec, dotProduct, Fin.sum_univ_three] using this
  exact ⟨c 0, r 1, r 2, c 1, c 2⟩

/-- Properties of one of the matrices that `matrix_geo_to_base` returns: it leaves the radial component alone, is orthogonal, and
describes the same vector in space (`c` at the given point, `R c` at the returned point). -/
def GoodRotation (b : Base) (inverse : Bool) (theta phi theta' phi' : ℝ) (R : Matrix (Fin 3) (Fin 3) ℝ) : Prop :=
  (R 0 0 = 1 ∧ R 0 1 = 0 ∧ R 0 2 = 0 ∧ R 1 0 = 0 ∧ R 2 0 = 0) ∧ R * R.transpose = 1 ∧
  ∀ c : Vec, if inverse then SameVector b theta' phi' (R.mulVec c) theta phi c else SameVector b theta phi c theta' phi' (R.mulVec c)

/-- One point of `matrix_geo_to_base`. -/
noncomputable def onePoint (p : ℝ × ℝ × Base) (inverse : Bool) : ℝ × ℝ × Matrix (Fin 3) (Fin 3) ℝ :=
  let q := geoToBase p.1 p.2.1 p.2.2 inverse
  (q.1, q.2, if inverse then (rotationMatrix q.1 q.2 p.1 p.2.1 p.2.2).transpose else rotationMatrix p.1 p.2.1 q.1 q.2 p.2.2)

theorem matrix_cases (pts : List (ℝ × ℝ × Base)) (inverse : Bool) :
    matrixGeoToBase pts inverse =
      if useCheck (pts.map fun p => p.1) = true ∧ useCheck (pts.map fun p => (geoToBase p.1 p.2.1 p.2.2 inverse).1) = true
      then .ok (pts.map fun p => onePoint p inverse) else .error .valueError := by
  unfold matrixGeoToBase
  simp only [List.map_map]
  cases inverse with
  | false =>
    simp only [Bool.false_eq_true, if_false]
    have e1 : ((fun x : (ℝ × ℝ) × (ℝ × ℝ) × Base => x.1.1) ∘ fun p : ℝ × ℝ × Base => ((p.1, p.2.1), geoToBase p.1 p.2.1 p.2.2 false, p.2.2)) = fun p => p.1 := rfl
    have e2 : ((fun x : (ℝ × ℝ) × (ℝ × ℝ) × Base => x.2.1.1) ∘ fun p : ℝ × ℝ × Base => ((p.1, p.2.1), geoToBase p.1 p.2.1 p.2.2 false, p.2.2)) = fun p => (geoToBase p.1 p.2.1 p.2.2 false).1 := rfl
    rw [e1, e2]
    cases h1 : useCheck (pts.map fun p => p.1) <;> cases h2 : useCheck (pts.map fun p => (geoToBase p.1 p.2.1 p.2.2 false).1) <;>
      simp [bind, Except.bind, throw, throwThe, MonadExceptOf.throw, pure, Except.pure, onePoint]
  | true =>
    simp only [if_true]
    have e1 : ((fun x : (ℝ × ℝ) × (ℝ × ℝ) × Base => x.1.1) ∘ fun p : ℝ × ℝ × Base => (geoToBase p.1 p.2.1 p.2.2 true, (p.1, p.2.1), p.2.2)) = fun p => (geoToBase p.1 p.2.1 p.2.2 true).1 := rfl
    have e2 : ((fun x : (ℝ × ℝ) × (ℝ × ℝ) × Base => x.2.1.1) ∘ fun p : ℝ × ℝ × Base => (geoToBase p.1 p.2.1 p.2.2 true, (p.1, p.2.1), p.2.2)) = fun p => p.1 := rfl
    rw [e1, e2]
    cases h1 : useCheck (pts.map fun p => p.1) <;> cases h2 : useCheck (pts.map fun p => (geoToBase p.1 p.2.1 p.2.2 true).1) <;>
      simp [bind, Except.bind, throw, throwThe, MonadExceptOf.throw, pure, Except.pure, onePoint]
    intros
    rfl

theorem onePoint_good (p : ℝ × ℝ × Base) (hb : RightHanded p.2.2.e1 p.2.2.e2 p.2.2.e3) (inverse : Bool) :
    GoodRotation p.2.2 inverse p.1 p.2.1 (onePoint p inverse).1 (onePoint p inverse).2.1 (onePoint p inverse).2.2 := by
  cases inverse with
  | false =>
    simp only [onePoint, Bool.false_eq_true, if_false, GoodRotation]
    refine ⟨rotation_radial _ _ _ _ _ hb (geoToBase_forward p.2.2 hb p.1 p.2.1), (rotation_orthogonal _ _ _ _ _ hb).1, ?_⟩
    intro c
    exact rotation_mulVec _ _ _ _ _ hb c
  | true =>
    simp only [onePoint, if_true, GoodRotation]
    have hr := rotation_radial _ _ _ _ _ hb (geoToBase_inverse p.2.2 hb p.1 p.2.1)
    have ho := rotation_orthogonal (geoToBase p.1 p.2.1 p.2.2 true).1 (geoToBase p.1 p.2.1 p.2.2 true).2 p.1 p.2.1 p.2.2 hb
    obtain ⟨r1, r2, r3, r4, r5⟩ := hr
    refine ⟨⟨r1, r4, r5, r2, r3⟩, by rw [Matrix.transpose_transpose]; exact ho.2, ?_⟩
    intro c
    have := rotation_mulVec (geoToBase p.1 p.2.1 p.2.2 true).1 (geoToBase p.1 p.2.1 p.2.2 true).2 p.1 p.2.1 p.2.2 hb
      ((rotationMatrix (geoToBase p.1 p.2.1 p.2.2 true).1 (geoToBase p.1 p.2.1 p.2.2 true).2 p.1 p.2.1 p.2.2).transpose.mulVec c)
    rw [Matrix.mulVec_mulVec, ho.1, Matrix.one_mulVec] at this
    exact this

/-- **C36** (matrices). For every array of points with right-handed orthonormal base vectors: the call fails with ValueError if
one of the points is a pole of the geographic or of the rotated system, otherwise it returns, for each point, its coordinates in
the other system and an orthogonal matrix that leaves the radial component alone and describes the same vector in space. -/
theorem C36_matrix (pts : List (ℝ × ℝ × Base)) (hne : pts ≠ []) (inverse : Bool)
    (hb : ∀ p ∈ pts, RightHanded p.2.2.e1 p.2.2.e2 p.2.2.e3) (hr : ∀ p ∈ pts, 0 ≤ p.1 ∧ p.1 ≤ 180) :
    ((∃ p ∈ pts, p.1 = 0 ∨ p.1 = 180 ∨ (geoToBase p.1 p.2.1 p.2.2 inverse).1 = 0 ∨ (geoToBase p.1 p.2.1 p.2.2 inverse).1 = 180) →
      matrixGeoToBase pts inverse = .error .valueError) ∧
    ((∀ p ∈ pts, ¬ (p.1 = 0 ∨ p.1 = 180 ∨ (geoToBase p.1 p.2.1 p.2.2 inverse).1 = 0 ∨ (geoToBase p.1 p.2.1 p.2.2 inverse).1 = 180)) →
      ∃ out, matrixGeoToBase pts inverse = .ok out ∧ out.length = pts.length ∧ ∀ (i : ℕ) p o, pts[i]? = some p → out[i]? = some o →
        (o.1, o.2.1) = geoToBase p.1 p.2.1 p.2.2 inverse ∧ GoodRotation p.2.2 inverse p.1 p.2.1 o.1 o.2.1 o.2.2) := by
  have hc1 := C37_use_poles (pts.map fun p => p.1) (by simpa using hne) (by
    intro t ht
    obtain ⟨p, hp, rfl⟩ := List.mem_map.1 ht
    exact hr p hp)
  have hc2 := C37_use_poles (pts.map fun p => (geoToBase p.1 p.2.1 p.2.2 inverse).1) (by simpa using hne) (by
    intro t ht
    obtain ⟨p, hp, rfl⟩ := List.mem_map.1 ht
    exact ⟨(geoToBase_range _ _ _ _).1, (geoToBase_range _ _ _ _).2.1⟩)
  rw [matrix_cases]
  constructor
  · rintro ⟨p, hp, h⟩
    rw [if_neg]
    rintro ⟨h1, h2⟩
    rcases h with h | h | h | h
    · rw [hc1.2 ⟨p.1, List.mem_map.2 ⟨p, hp, rfl⟩, Or.inl h⟩] at h1; cases h1
    · rw [hc1.2 ⟨p.1, List.mem_map.2 ⟨p, hp, rfl⟩, Or.inr h⟩] at h1; cases h1
    · rw [hc2.2 ⟨_, List.mem_map.2 ⟨p, hp, rfl⟩, Or.inl h⟩] at h2; cases h2
    · rw [hc2.2 ⟨_, List.mem_map.2 ⟨p, hp, rfl⟩, Or.inr h⟩] at h2; cases h2
  · intro h
    have h1 : useCheck (pts.map fun p => p.1) = true := by
      by_contra hc
      obtain ⟨t, ht, hh⟩ := hc1.1 (by simpa using hc)
      obtain ⟨p, hp, rfl⟩ := List.mem_map.1 ht
      exact h p hp (by tauto)
    have h2 : useCheck (pts.map fun p => (geoToBase p.1 p.2.1 p.2.2 inverse).1) = true := by
      by_contra hc
      obtain ⟨t, ht, hh⟩ := hc2.1 (by simpa using hc)
      obtain ⟨p, hp, rfl⟩ := List.mem_map.1 ht
      exact h p hp (by tauto)
    rw [if_pos ⟨h1, h2⟩]
    refine ⟨_, rfl, by simp, ?_⟩
    intro i p o hp ho
    rw [List.getElem?_map, hp] at ho
    simp only [Option.map_some, Option.some.injEq] at ho
    subst ho
    exact ⟨rfl, onePoint_good p (hb p (List.mem_of_getElem? hp)) inverse⟩

/-! ### `transform_vectors` -/

/-- Horizontal components of one transformed point. -/
noncomputable def oneVector (p : (ℝ × ℝ) × (ℝ × ℝ) × ℝ) (b : Base) (inverse : Bool) : (ℝ × ℝ) × (ℝ × ℝ) :=
  let m := onePoint (p.1.1, p.1.2, b) inverse
  ((m.1, m.2.1), (m.2.2 1 1 * p.2.1.1 + m.2.2 1 2 * p.2.1.2, m.2.2 2 1 * p.2.1.1 + m.2.2 2 2 * p.2.1.2))

theorem mapM_id_some {α : Type} (l : List (Option α)) (out : List α) (h : l.mapM id = some out) : l = out.map some := by
  induction l generalizing out with
  | nil => simp at h; subst h; rfl
  | cons a l ih =>
    rw [List.mapM_cons] at h
    cases a with
    | none => simp at h
    | some a =>
      cases hl : l.mapM id with
      | none => rw [hl] at h; simp at h
      | some o =>
        rw [hl] at h
        simp at h
        subst h
        rw [ih o hl]
        rfl

theorem mapM_id_map {α : Type} (l : List α) : (l.map some).mapM id = some l := by
  induction l with
  | nil => rfl
  | cons a l ih => simp [List.mapM_cons, ih]

/-- What a successful call computes. -/
theorem transformVectors_ok (config : ℝ × ℝ × ℝ) (reference : String) (dipole : Dipole) (inverse : Bool)
    (pts : List ((ℝ × ℝ) × (ℝ × ℝ) × ℝ)) (out : List ((ℝ × ℝ) × (ℝ × ℝ)))
    (h : transformVectors config reference dipole inverse pts = .ok (some out)) :
    ∃ g : ℝ → Base, referenceBase config reference dipole (pts.map fun p => p.2.2) = .ok (pts.map fun p => some (g p.2.2)) ∧
      (∀ p ∈ pts, RightHanded (g p.2.2).e1 (g p.2.2).e2 (g p.2.2).e3) ∧
      useCheck (pts.map fun p => p.1.1) = true ∧ useCheck (pts.map fun p => (geoToBase p.1.1 p.1.2 (g p.2.2) inverse).1) = true ∧
      out = pts.map fun p => oneVector p (g p.2.2) inverse := by
  unfold transformVectors at h
  rcases ref_cases config reference dipole (pts.map fun p => p.2.2) with ⟨e, he⟩ | ⟨f, hf, hrh⟩
  · rw [he] at h; cases h
  rw [hf] at h
  simp only [bind, Except.bind] at h
  cases hm : List.mapM id ((pts.map fun p => p.2.2).map f) with
  | none => rw [hm] at h; simp [pure, Except.pure] at h
  | some bases =>
    rw [hm] at h
    have hall := mapM_id_some _ _ hm
    have hsome : ∀ p ∈ pts, ∃ b, f p.2.2 = some b := by
      intro p hp
      have : f p.2.2 ∈ bases.map some := by
        rw [← hall]
        exact List.mem_map.2 ⟨p.2.2, List.mem_map.2 ⟨p, hp, rfl⟩, rfl⟩
      obtain ⟨b, _, hb⟩ := List.mem_map.1 this
      exact ⟨b, hb.symm⟩
    let g : ℝ → Base := fun t => (f t).getD ⟨0, 0, 0⟩
    have hg : ∀ p ∈ pts, f p.2.2 = some (g p.2.2) := by
      intro p hp
      obtain ⟨b, hb⟩ := hsome p hp
      simp [g, hb]
    have hbases : bases = pts.map fun p => g p.2.2 := by
      have : bases.map some = (pts.map fun p => g p.2.2).map some := by
        rw [← hall, List.map_map, List.map_map]
        apply List.map_congr_left
        intro p hp
        exact hg p hp
      exact List.map_injective_iff.2 (Option.some_injective _) this
    simp only at h
    rw [hbases, List.zipWith_map_right, List.zipWith_self, matrix_cases] at h
    simp only [List.map_map, Function.comp_def] at h
    by_cases hc : useCheck (pts.map fun p => p.1.1) = true ∧ useCheck (pts.map fun p => (geoToBase p.1.1 p.1.2 (g p.2.2) inverse).1) = true
    · rw [if_pos hc] at h
      simp only [pure, Except.pure, Except.ok.injEq, Option.some.injEq] at h
      rw [List.zipWith_map_right, List.zipWith_self] at h
      refine ⟨g, ?_, ?_, hc.1, hc.2, h.symm⟩
      · rw [hf, List.map_map]
        congr 1
        apply List.map_congr_left
        intro p hp
        exact hg p hp
      · intro p hp
        exact hrh _ _ (hg p hp)
    · rw [if_neg hc] at h
      cases h

/-- **C36** (vectors). If the call succeeds: for every point the result is the same point and the same vector in space (with zero
radial component), and the length of the horizontal part is unchanged. -/
theorem C36_vectors (config : ℝ × ℝ × ℝ) (reference : String) (dipole : Dipole) (inverse : Bool)
    (pts : List ((ℝ × ℝ) × (ℝ × ℝ) × ℝ)) (out : List ((ℝ × ℝ) × (ℝ × ℝ)))
    (h : transformVectors config reference dipole inverse pts = .ok (some out)) :
    ∃ bases : List Base, referenceBase config reference dipole (pts.map fun p => p.2.2) = .ok (bases.map some) ∧
      out.length = pts.length ∧ ∀ (i : ℕ) p o, pts[i]? = some p → out[i]? = some o → ∃ b, bases[i]? = some b ∧ RightHanded b.e1 b.e2 b.e3 ∧
        (if inverse then SamePoint b o.1.1 o.1.2 p.1.1 p.1.2 else SamePoint b p.1.1 p.1.2 o.1.1 o.1.2) ∧
        (∀ Br : ℝ, if inverse then SameVector b o.1.1 o.1.2 ![Br, o.2.1, o.2.2] p.1.1 p.1.2 ![Br, p.2.1.1, p.2.1.2]
          else SameVector b p.1.1 p.1.2 ![Br, p.2.1.1, p.2.1.2] o.1.1 o.1.2 ![Br, o.2.1, o.2.2]) ∧
        o.2.1 ^ 2 + o.2.2 ^ 2 = p.2.1.1 ^ 2 + p.2.1.2 ^ 2 := by
  obtain ⟨g, h1, h2, _, _, h5⟩ := transformVectors_ok _ _ _ _ _ _ h
  refine ⟨pts.map fun p => g p.2.2, by rw [h1, List.map_map]; rfl, by rw [h5]; simp, ?_⟩
  intro i p o hp ho
  have hmem := List.mem_of_getElem? hp
  rw [h5, List.getElem?_map, hp] at ho
  simp only [Option.map_some, Option.some.injEq] at ho
  have hg := onePoint_good (p.1.1, p.1.2, g p.2.2) (h2 p hmem) inverse
  obtain ⟨⟨r00, r01, r02, r10, r20⟩, horth, hsame⟩ := hg
  have hmv : ∀ Br : ℝ, (onePoint (p.1.1, p.1.2, g p.2.2) inverse).2.2.mulVec ![Br, p.2.1.1, p.2.1.2] = ![Br, o.2.1, o.2.2] := by
    intro Br
    rw [← ho]
    funext i
    fin_cases i <;> simp [Matrix.mulVec, dotProduct, Fin.sum_univ_three, oneVector, r00, r01, r02, r10, r20]
  refine ⟨g p.2.2, by rw [List.getElem?_map, hp]; rfl, h2 p hmem, ?_, ?_, ?_⟩
  · rw [← ho]
    cases inverse with
    | false => exact geoToBase_forward (g p.2.2) (h2 p hmem) p.1.1 p.1.2
    | true => exact geoToBase_inverse (g p.2.2) (h2 p hmem) p.1.1 p.1.2
  · intro Br
    have := hsame ![Br, p.2.1.1, p.2.1.2]
    rw [hmv Br] at this
    rw [← ho] at this ⊢
    exact this
  · have e := hmv 0
    generalize (onePoint (p.1.1, p.1.2, g p.2.2) inverse).2.2 = R at horth e
    have hot := mul_eq_one_comm.1 horth
    have hd : ∀ v : Vec, dotProduct (R.mulVec v) (R.mulVec v) = dotProduct v v := by
      intro v
      rw [Matrix.dotProduct_mulVec, ← Matrix.mulVec_transpose, Matrix.mulVec_mulVec, hot, Matrix.one_mulVec]
    have := hd ![0, p.2.1.1, p.2.1.2]
    rw [e] at this
    simp [dotProduct, Fin.sum_univ_three] at this
    nlinarith

/-- **C36** (inverse). The opposite transformation of the results, at the same times, returns the original points and components
(points with canonical coordinates). -/
theorem C36_undo (config : ℝ × ℝ × ℝ) (reference : String) (dipole : Dipole) (inverse : Bool)
    (pts : List ((ℝ × ℝ) × (ℝ × ℝ) × ℝ)) (out : List ((ℝ × ℝ) × (ℝ × ℝ)))
    (h : transformVectors config reference dipole inverse pts = .ok (some out))
    (hcan : ∀ p ∈ pts, 0 < p.1.1 ∧ p.1.1 < 180 ∧ -180 < p.1.2 ∧ p.1.2 ≤ 180) :
    transformVectors config reference dipole (!inverse) (List.zipWith (fun o p => (o.1, o.2, p.2.2)) out pts) =
      .ok (some (pts.map fun p => (p.1, p.2.1))) := by
  obtain ⟨g, h1, h2, h3, h4, h5⟩ := transformVectors_ok _ _ _ _ _ _ h
  have hz : List.zipWith (fun (o : (ℝ × ℝ) × (ℝ × ℝ)) (p : (ℝ × ℝ) × (ℝ × ℝ) × ℝ) => (o.1, o.2, p.2.2)) out pts =
      pts.map fun p => ((oneVector p (g p.2.2) inverse).1, (oneVector p (g p.2.2) inverse).2, p.2.2) := by
    rw [h5, List.zipWith_map_left, List.zipWith_self]
  rw [hz]
  unfold transformVectors
  have ht : (pts.map fun p => ((oneVector p (g p.2.2) inverse).1, (oneVector p (g p.2.2) inverse).2, p.2.2)).map (fun p => p.2.2) = pts.map fun p => p.2.2 := by
    rw [List.map_map]; rfl
  rw [ht, h1]
  simp only [bind, Except.bind]
  have hm : List.mapM id (pts.map fun p => some (g p.2.2)) = some (pts.map fun p => g p.2.2) := by
    have := mapM_id_map (pts.map fun p => g p.2.2)
    rw [List.map_map] at this
    exact this
  rw [hm]
  simp only
  rw [List.zipWith_map, List.zipWith_self, matrix_cases]
  simp only [List.map_map, Function.comp_def]
  have hundo : ∀ p ∈ pts, geoToBase (oneVector p (g p.2.2) inverse).1.1 (oneVector p (g p.2.2) inverse).1.2 (g p.2.2) (!inverse) = (p.1.1, p.1.2) := by
    intro p hp
    obtain ⟨c1, c2, c3, c4⟩ := hcan p hp
    exact geoToBase_undo (g p.2.2) (h2 p hp) p.1.1 p.1.2 inverse c1 c2 c3 c4
  have hc1 : (pts.map fun p => (geoToBase (oneVector p (g p.2.2) inverse).1.1 (oneVector p (g p.2.2) inverse).1.2 (g p.2.2) (!inverse)).1) = pts.map fun p => p.1.1 := by
    apply List.map_congr_left
    intro p hp
    rw [hundo p hp]
  rw [if_pos ⟨h4, by
    have := hc1
    rw [← hc1] at h3
    exact h3⟩]
  simp only [pure, Except.pure]
  rw [List.zipWith_map, List.zipWith_self]
  congr 2
  apply List.map_congr_left
  intro p hp
  have hu := hundo p hp
  have hrh := h2 p hp
  -- the matrix of the way back is the transpose
  have hback : onePoint ((oneVector p (g p.2.2) inverse).1.1, (oneVector p (g p.2.2) inverse).1.2, g p.2.2) (!inverse) =
      (p.1.1, p.1.2, (onePoint (p.1.1, p.1.2, g p.2.2) inverse).2.2.transpose) := by
    unfold onePoint
    simp only
    rw [hu]
    cases inverse with
    | false => simp only [Bool.not_false, if_true, Bool.false_eq_true, if_false]; rfl
    | true => simp only [Bool.not_true, if_true, Bool.false_eq_true, if_false, Matrix.transpose_transpose]; rfl
  simp only [Function.comp_apply]
  rw [hback]
  have hg := onePoint_good (p.1.1, p.1.2, g p.2.2) hrh inverse
  obtain ⟨⟨r00, r01, r02, r10, r20⟩, horth, _⟩ := hg
  have hot := mul_eq_one_comm.1 horth
  simp only [oneVector]
  generalize (onePoint (p.1.1, p.1.2, g p.2.2) inverse).2.2 = R at horth hot r00 r01 r02 r10 r20
  have k : ∀ i j : Fin 3, R 0 i * R 0 j + R 1 i * R 1 j + R 2 i * R 2 j = (1 : Matrix (Fin 3) (Fin 3) ℝ) i j := by
    intro i j
    have := congrFun (congrFun hot i) j
    rw [Matrix.mul_apply, Fin.sum_univ_three] at this
    exact this
  have k11 := k 1 1
  have k12 := k 1 2
  have k22 := k 2 2
  rw [r01] at k11 k12
  rw [r02] at k12 k22
  simp at k11 k12 k22
  simp only [Matrix.transpose_apply]
  apply Prod.ext
  · rfl
  · apply Prod.ext
    · simp only
      linear_combination p.2.1.1 * k11 + p.2.1.2 * k12
    · simp only
      linear_combination p.2.1.1 * k12 + p.2.1.2 * k22

/-- **C36** (errors). Unknown reference systems raise ValueError. -/
theorem C36_unknown (config : ℝ × ℝ × ℝ) (reference : String) (dipole : Dipole) (inverse : Bool) (pts : List ((ℝ × ℝ) × (ℝ × ℝ) × ℝ))
    (h1 : reference ≠ "gsm") (h2 : reference ≠ "sm") (h3 : reference ≠ "mag") :
    transformVectors config reference dipole inverse pts = .error .valueError := by
  unfold transformVectors referenceBase
  rw [if_neg h1, if_neg h2, if_neg h3]
  rfl

/-- The MAG system of a dipole whose pole is at colatitude 90, longitude 0 exists, and the point at colatitude 45, longitude 90
is off the poles in both systems. -/
theorem ex_vectors : ∃ out, transformVectors (0, 0, 0) "mag" (.tuple [90, 0]) false [((45, 90), (1, 2), 0)] = .ok (some out) := by
  have hd := (C43_pole (0, 0, 0) 90 0 1 one_pos).1
  have hdir : direction 90 0 = ![1, 0, 0] := by
    funext i
    have : (90 : ℝ) * Real.pi / 180 = Real.pi / 2 := by ring
    fin_cases i <;> simp [direction, this]
  rw [hdir] at hd
  obtain ⟨b, hb, hrh, h3, _, _⟩ := (C37_mag ![1, 0, 0] (by simp [dot])).2 (by simp)
  have href : referenceBase (0, 0, 0) "mag" (.tuple [90, 0]) ([((45, 90), (1, 2), 0)].map fun p : (ℝ × ℝ) × (ℝ × ℝ) × ℝ => p.2.2) = .ok [some b] := by
    unfold referenceBase
    rw [if_neg (by decide), if_neg (by decide), if_pos rfl, hd]
    simp [bind, Except.bind, pure, Except.pure, hb]
  unfold transformVectors
  rw [href]
  simp only [bind, Except.bind, List.mapM_cons, List.mapM_nil, pure, Option.bind, id]
  have hm := (C36_matrix [((45 : ℝ), (90 : ℝ), b)] (by simp) false (by simpa using hrh) (by
    intro p hp; simp at hp; subst hp; norm_num)).2 (by
    intro p hp
    simp at hp
    subst hp
    have hsp := geoToBase_forward b hrh 45 90
    obtain ⟨r1, r2, r3, r4⟩ := geoToBase_range b 45 90 false
    have hz : direction (geoToBase 45 90 b false).1 (geoToBase 45 90 b false).2 2 = 0 := by
      have := rh_dot_combine hrh (direction (geoToBase 45 90 b false).1 (geoToBase 45 90 b false).2)
      unfold SamePoint at hsp
      rw [hsp, h3] at this
      have := congrFun this 2
      rw [← this]
      have e : (90 : ℝ) * Real.pi / 180 = Real.pi / 2 := by ring
      simp [dot, direction, e]
    have hne : ∀ t : ℝ, (t = 0 ∨ t = 180) → ∀ q, direction t q 2 ≠ 0 := by
      intro t ht q
      rcases ht with rfl | rfl
      · simp [direction]
      · simp [direction]
    intro hc
    rcases hc with hc | hc | hc | hc
    · norm_num at hc
    · norm_num at hc
    · exact hne _ (Or.inl hc) _ hz
    · exact hne _ (Or.inr hc) _ hz)
  obtain ⟨out, ho, _⟩ := hm
  simp only [List.zipWith_cons_cons, List.zipWith_nil_right]
  rw [ho]
  exact ⟨_, rfl⟩

end ChaosMagPy.Coord
