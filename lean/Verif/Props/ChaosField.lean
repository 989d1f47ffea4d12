import Verif.Props.ChaosSm
/-!
# C56: the CHAOS fields are potential fields of the synthesised coefficients; C55: points are independent of each other
-/
namespace ChaosMagPy.Chaos
open ChaosMagPy.Spec
open ChaosMagPy.Index (nmaxOfDim)
open ChaosMagPy.Synth (pot fieldR fieldT fieldP Source)

/-- `b` is minus the gradient of the potential of the coefficients `v` (degrees 1 to `n`, reference radius `a`) at the point. -/
def MinusGradient (src : Source) (a : ℝ) (v : ℕ → ℝ) (n : ℕ) (p : Pt) (b : ℝ × ℝ × ℝ) : Prop :=
  let V := pot src a v 1 n n
  HasDerivAt (fun r => V r (rad p.theta) (rad p.phi)) (-b.1) p.radius ∧
  HasDerivAt (fun x => V p.radius x (rad p.phi)) (-(p.radius * b.2.1)) (rad p.theta) ∧
  HasDerivAt (fun y => V p.radius (rad p.theta) y) (-(p.radius * Real.sin (rad p.theta) * b.2.2)) (rad p.phi)

/-- A point with a valid colatitude and a positive radius. -/
def Pt.Valid (p : Pt) : Prop := 0 ≤ p.theta ∧ p.theta ≤ 180 ∧ 0 < p.radius

/-- Closed form of the field. -/
noncomputable def fieldAt (src : Source) (a : ℝ) (n : ℕ) (p : Pt) (v : ℕ → ℝ) : ℝ × ℝ × ℝ :=
  (fieldR src a v 1 n n p.radius (rad p.theta) (rad p.phi), fieldT src a v 1 n n p.radius (rad p.theta) (rad p.phi),
    fieldP src a v 1 n n p.radius (rad p.theta) (rad p.phi))

theorem fieldAt_gradient (src : Source) (a : ℝ) (ha : 0 < a) (n : ℕ) (p : Pt) (hp : p.Valid) (v : ℕ → ℝ) :
    MinusGradient src a v n p (fieldAt src a n p v) :=
  Synth.field_gradient src a ha v 1 n n p.radius (rad p.theta) (rad p.phi) hp.2.2

theorem window_full (n : ℕ) : coefStart 1 n (n + 1) = n * (n + 2) := by
  have := Synth.coefStart_small 1 n (n + 1) (by omega) (by omega)
  have h : (coefStart 1 n (n + 1) : ℤ) = ((n * (n + 2) : ℕ) : ℤ) := by
    rw [this]; push_cast; ring
  exact_mod_cast h

theorem degree_exists (k : ℕ) : ∃ n : ℕ, n * (n + 2) ≤ k ∧ k < (n + 1) * (n + 3) := by
  have h1 := Nat.sqrt_le' (k + 1)
  have h2 := Nat.lt_succ_sqrt' (k + 1)
  have h3 : 1 ≤ Nat.sqrt (k + 1) := Nat.le_sqrt'.2 (by omega)
  obtain ⟨n, hn⟩ : ∃ n, Nat.sqrt (k + 1) = n + 1 := ⟨Nat.sqrt (k + 1) - 1, by omega⟩
  rw [hn] at h1 h2
  refine ⟨n, by nlinarith, ?_⟩
  simp only [Nat.succ_eq_add_one] at h2
  nlinarith

theorem fieldOfRows_given (a : ℝ) (ha : 0 < a) (dim : ℕ) (rows : List (Option (ℕ → ℝ))) (pts : List Pt) (n : ℕ) (src : Source)
    (hn : 1 ≤ n) (hd : n * (n + 2) ≤ dim) (hl : rows.length = pts.length) (hne : pts ≠ []) (hv : ∀ p ∈ pts, p.Valid) :
    fieldOfRows a dim rows pts (some n) src.name =
      .ok (List.zipWith (fun p (r : Option (ℕ → ℝ)) => r.map (fieldAt src a n p)) pts rows) := by
  refine (fieldOfRows_ok _ _ _ _ _ _ _).2 ⟨(withRows pts rows).map fun q =>
      (fieldR src a q.coeffs 1 n n q.radius (rad q.theta) (rad q.phi), fieldT src a q.coeffs 1 n n q.radius (rad q.theta) (rad q.phi),
        fieldP src a q.coeffs 1 n n q.radius (rad q.theta) (rad q.phi)), ?_, ?_⟩
  · have hmem : ∀ q ∈ withRows pts rows, ∃ p ∈ pts, q.theta = p.theta ∧ q.radius = p.radius := by
      intro q hq
      unfold withRows at hq
      rw [← List.map_uncurry_zip_eq_zipWith, List.mem_map] at hq
      obtain ⟨⟨p, r⟩, hpr, rfl⟩ := hq
      exact ⟨p, (List.of_mem_zip hpr).1, rfl, rfl⟩
    have := Synth.synthValues_succeeds a ha.ne' dim (withRows pts rows) 1 n n src le_rfl hn
      (by
        intro h
        apply hne
        apply List.eq_nil_of_length_eq_zero
        have := congrArg List.length h
        simp only [withRows, List.length_zipWith, List.length_nil] at this
        omega)
      (fun q hq => by
        obtain ⟨p, hp, h1, -⟩ := hmem q hq
        rw [h1]
        exact ⟨(hv p hp).1, (hv p hp).2.1⟩)
      (fun q hq => by
        obtain ⟨p, hp, -, h2⟩ := hmem q hq
        rw [h2]
        exact (hv p hp).2.2.ne')
      (by rw [Int.toNat_natCast, window_full]; exact hd)
    rw [Int.toNat_natCast] at this
    exact this
  · apply List.ext_getElem
    · simp [withRows]
    · intro i h1 h2
      simp only [List.getElem_zipWith, List.getElem_map, withRows]
      simp only [List.length_zipWith] at h1
      cases rows[i]'(by omega) with
      | none => rfl
      | some v => rfl

theorem fieldOfRows_inferred (a : ℝ) (ha : 0 < a) (dim : ℕ) (rows : List (Option (ℕ → ℝ))) (pts : List Pt) (n : ℕ) (src : Source)
    (hn : 1 ≤ n) (hd : n * (n + 2) ≤ dim) (hd' : dim < (n + 1) * (n + 3)) (hl : rows.length = pts.length) (hne : pts ≠ [])
    (hv : ∀ p ∈ pts, p.Valid) :
    fieldOfRows a dim rows pts none src.name =
      .ok (List.zipWith (fun p (r : Option (ℕ → ℝ)) => r.map (fieldAt src a n p)) pts rows) := by
  rw [← fieldOfRows_given a ha dim rows pts n src hn hd hl hne hv]
  have h := Synth.C20_infer_nmax a dim (withRows pts rows) 1 n (some src.name) le_rfl hn
    (by rw [Synth.windowSize_eq, window_full]; exact hd)
    (by rw [Synth.windowSize_eq, window_full]; exact hd')
  have e1 := (Synth.C20_defaults a dim (withRows pts rows) none none none 0 (some src.name)).1
  have e2 := (Synth.C20_defaults a dim (withRows pts rows) none (some (n : ℤ)) none n (some src.name)).1
  unfold fieldOfRows
  simp only
  change (match ofSynth (Synth.synthValues a dim (withRows pts rows) none none none (some src.name)) with
    | .error e => Except.error e
    | .ok l => .ok (List.zipWith (fun (r : Option (ℕ → ℝ)) b => r.map fun _ => b) rows l)) =
    (match ofSynth (Synth.synthValues a dim (withRows pts rows) none (some (n : ℤ)) none (some src.name)) with
    | .error e => Except.error e
    | .ok l => .ok (List.zipWith (fun (r : Option (ℕ → ℝ)) b => r.map fun _ => b) rows l))
  rw [e1, e2]
  have h' : Synth.synthValues a dim (withRows pts rows) (some 1) none none (some src.name) =
      Synth.synthValues a dim (withRows pts rows) (some 1) (some (n : ℤ)) none (some src.name) := h
  rw [h']

theorem fieldOfRows_nothing (a : ℝ) (dim : ℕ) (rows : List (Option (ℕ → ℝ))) (pts : List Pt) (source : String) (hd : dim < 3) (B : List Val) :
    fieldOfRows a dim rows pts none source ≠ .ok B := by
  intro h
  obtain ⟨l, h1, -⟩ := (fieldOfRows_ok _ _ _ _ _ _ _).1 h
  have e1 := (Synth.C20_defaults a dim (withRows pts rows) none none none 0 (some source)).1
  have e2 : Synth.synthValues a dim (withRows pts rows) (some 1) none none (some source) = .error .valueError :=
    Synth.C20_infer_nothing a dim (withRows pts rows) 1 (some source) le_rfl (by omega)
  change Synth.synthValues a dim (withRows pts rows) none none none (some source) = .ok l at h1
  rw [e1, e2] at h1
  cases h1

theorem hdimN (N : ℕ) : (nmaxOfDim (N * (N + 2))).toNat = N := by
  have := (Index.C12_nmax_of_dim (N * (N + 2)) N).2 ⟨le_rfl, by ring_nf; omega⟩
  rw [this]
  simp

theorem clip_used (N : ℕ) (nmax : Option ℕ) : clipNmax N nmax = usedDegree N nmax := by
  cases nmax with
  | none => rfl
  | some n =>
    simp only [clipNmax, usedDegree]
    split_ifs <;> omega

theorem model_values (a : ℝ) (ha : 0 < a) (m : Model) (src : Source) (hsrc : m.source = src.name) (N : ℕ)
    (hdim : m.base.dim = N * (N + 2)) (hN : 1 ≤ N) (pts : List Pt) (hne : pts ≠ []) (hv : ∀ p ∈ pts, p.Valid)
    (nmax : Option ℕ) (h0 : nmax ≠ some 0) (deriv : Option ℕ) (e : Option PPoly.Extrap) (k : ℕ) (rows : List (Option (ℕ → ℝ)))
    (h : PPoly.modelSynthCoeffs m.base (pts.map Pt.time) none deriv e = .ok (k, rows)) :
    m.synthValues a pts nmax deriv e =
      .ok (List.zipWith (fun p (r : Option (ℕ → ℝ)) => r.map (fieldAt src a (usedDegree N nmax) p)) pts rows) := by
  have hlen := rows_length _ _ _ _ _ _ h
  simp only [List.length_map] at hlen
  have hu : usedDegree N nmax ≤ N := by
    cases nmax with
    | none => exact le_rfl
    | some n => exact min_le_right _ _
  have hu1 : 1 ≤ usedDegree N nmax := by
    cases nmax with
    | none => exact hN
    | some n =>
      have : n ≠ 0 := fun h => h0 (by rw [h])
      simp only [usedDegree]
      omega
  unfold Model.synthValues
  simp only [hdim, hdimN, clip_used]
  rw [(PPoly.C29_truncation m.base _ (some (usedDegree N nmax)) deriv e k rows h).2]
  simp only [ofPPoly, bind, Except.bind, hsrc]
  exact fieldOfRows_given a ha _ rows pts _ src hu1
    (le_min le_rfl (by rw [hdim]; exact Nat.mul_le_mul hu (by omega))) hlen hne hv

/-- **C56** (time-dependent and static part). For a model with complete degrees `1..N` and valid points, the call succeeds whenever the
coefficients can be synthesised, and the value at each point is minus the gradient of the potential with the synthesised coefficients of its
time, truncated at the smaller one of `nmax` and `N`; it is NaN exactly if the coefficients are. -/
theorem C56_model (a : ℝ) (ha : 0 < a) (m : Model) (src : Source) (hsrc : m.source = src.name) (N : ℕ)
    (hdim : m.base.dim = N * (N + 2)) (hN : 1 ≤ N) (pts : List Pt) (hne : pts ≠ []) (hv : ∀ p ∈ pts, p.Valid)
    (nmax : Option ℕ) (h0 : nmax ≠ some 0) (deriv : Option ℕ) (e : Option PPoly.Extrap) (k : ℕ) (rows : List (Option (ℕ → ℝ)))
    (h : PPoly.modelSynthCoeffs m.base (pts.map Pt.time) none deriv e = .ok (k, rows)) :
    ∃ B, m.synthValues a pts nmax deriv e = .ok B ∧ B.length = pts.length ∧ ∀ (i : ℕ) (p : Pt), pts[i]? = some p →
      (rows[i]? = some none ∧ B[i]? = some none) ∨
      ∃ v b, rows[i]? = some (some v) ∧ B[i]? = some (some b) ∧ MinusGradient src a v (usedDegree N nmax) p b := by
  have hlen := rows_length _ _ _ _ _ _ h
  simp only [List.length_map] at hlen
  refine ⟨_, model_values a ha m src hsrc N hdim hN pts hne hv nmax h0 deriv e k rows h, by simp [hlen], ?_⟩
  intro i p hp
  obtain ⟨hi, rfl⟩ := List.getElem?_eq_some_iff.1 hp
  rw [List.getElem?_eq_getElem (by omega : i < rows.length), List.getElem?_eq_getElem (by simp; omega), List.getElem_zipWith]
  cases hr : rows[i] with
  | none => exact Or.inl ⟨rfl, rfl⟩
  | some v => exact Or.inr ⟨v, _, rfl, rfl, fieldAt_gradient src a ha _ _ (hv _ (List.getElem_mem hi)) v⟩

theorem fieldOf_inferred (a : ℝ) (ha : 0 < a) (pts : List Pt) (src : Source) (c : ℕ × List (ℕ → ℝ)) (n : ℕ) (hn : 1 ≤ n)
    (hd : n * (n + 2) ≤ c.1) (hd' : c.1 < (n + 1) * (n + 3)) (hl : c.2.length = pts.length) (hne : pts ≠ [])
    (hv : ∀ p ∈ pts, p.Valid) :
    fieldOf a pts src.name c = .ok (List.zipWith (fun p v => some (fieldAt src a n p v)) pts c.2) := by
  unfold fieldOf
  rw [fieldOfRows_inferred a ha c.1 _ pts n src hn hd hd' (by simpa using hl) hne hv, List.zipWith_map_right]
  rfl

theorem fieldOf_result (a : ℝ) (ha : 0 < a) (pts : List Pt) (src : Source) (c : ℕ × List (ℕ → ℝ)) (n : ℕ) (hn : 1 ≤ n)
    (hd : n * (n + 2) ≤ c.1) (hd' : c.1 < (n + 1) * (n + 3)) (hl : c.2.length = pts.length) (hne : pts ≠ [])
    (hv : ∀ p ∈ pts, p.Valid) :
    ∃ B : List (ℝ × ℝ × ℝ), fieldOf a pts src.name c = .ok (B.map some) ∧ B.length = pts.length ∧
      ∀ (i : ℕ) (p : Pt), pts[i]? = some p → ∃ v b, c.2[i]? = some v ∧ B[i]? = some b ∧ MinusGradient src a v n p b := by
  refine ⟨List.zipWith (fun p v => fieldAt src a n p v) pts c.2, ?_, by simp [hl], ?_⟩
  · rw [fieldOf_inferred a ha pts src c n hn hd hd' hl hne hv, List.map_zipWith]
  · intro i p hp
    obtain ⟨hi, rfl⟩ := List.getElem?_eq_some_iff.1 hp
    refine ⟨c.2[i], _, List.getElem?_eq_getElem (by omega), ?_, fieldAt_gradient src a ha _ _ (hv _ (List.getElem_mem hi)) _⟩
    rw [List.getElem?_eq_getElem (by simp; omega), List.getElem_zipWith]

theorem src_name (src : Source) : src.name = "external" ∨ src.name = "internal" := by
  cases src
  · exact Or.inr rfl
  · exact Or.inl rfl

/-- **C56** (GSM). If the coefficients of a source are synthesised (`k` columns, complete up to degree `n ≥ 1`), then the field of this source
at each valid point is minus the gradient of the potential of its kind with the coefficients of its time. -/
theorem C56_gsm (env : Env) (ha : 0 < env.rSurf) (m : Chaos) (src : Source) (pts : List Pt) (hne : pts ≠ []) (hv : ∀ p ∈ pts, p.Valid)
    (nmax : Option ℕ) (k n : ℕ) (rows : List (ℕ → ℝ)) (hn : 1 ≤ n) (hd : n * (n + 2) ≤ k) (hd' : k < (n + 1) * (n + 3))
    (h : synthCoeffsGsm env m (pts.map Pt.time) nmax (some src.name) = .ok (k, rows)) :
    ∃ B : List (ℝ × ℝ × ℝ), synthValuesGsm env m pts nmax (some src.name) = .ok (B.map some) ∧ B.length = pts.length ∧
      ∀ (i : ℕ) (p : Pt), pts[i]? = some p → ∃ v b, rows[i]? = some v ∧ B[i]? = some b ∧ MinusGradient src env.rSurf v n p b := by
  have hl := coeffsGsm_length _ _ _ _ _ _ h
  rw [gsm_source env m pts nmax src.name (src_name src), h]
  exact fieldOf_result env.rSurf ha pts src (k, rows) n hn hd hd' (by simpa using hl) hne hv

/-- **C56** (SM). The same for the near magnetosphere; the RC values are `rc_e` for the external and `rc_i` for the induced part. -/
theorem C56_sm (env : Env) (ha : 0 < env.rSurf) (m : Chaos) (src : Source) (pts : List Pt) (hne : pts ≠ []) (hv : ∀ p ∈ pts, p.Valid)
    (rcE rcI : Option (List ℝ)) (nmax : Option ℕ) (k n : ℕ) (rows : List (ℕ → ℝ)) (hn : 1 ≤ n) (hd : n * (n + 2) ≤ k)
    (hd' : k < (n + 1) * (n + 3))
    (h : synthCoeffsSm env m (pts.map Pt.time) nmax (some src.name) (if src = .external then rcE else rcI) = .ok (k, rows)) :
    ∃ B : List (ℝ × ℝ × ℝ), synthValuesSm env m pts rcE rcI nmax (some src.name) = .ok (B.map some) ∧ B.length = pts.length ∧
      ∀ (i : ℕ) (p : Pt), pts[i]? = some p → ∃ v b, rows[i]? = some v ∧ B[i]? = some b ∧ MinusGradient src env.rSurf v n p b := by
  have hl := coeffsSm_length _ _ _ _ _ _ _ h
  have hs : (if src.name = "external" then rcE else rcI) = (if src = .external then rcE else rcI) := by
    cases src
    · rw [if_neg (by decide), if_neg (by decide)]
    · rw [if_pos (show Source.external.name = "external" from rfl), if_pos rfl]
  rw [sm_source env m pts rcE rcI nmax src.name (src_name src), hs, h]
  exact fieldOf_result env.rSurf ha pts src (k, rows) n hn hd hd' (by simpa using hl) hne hv

/-! ### C55 -/

/-- A point and the RC values supplied for it. -/
abbrev PtRc := Pt × ℝ × ℝ

/-- On valid points, the result of `G` is computed point by point, or `G` fails. -/
def Pointwise (G : List PtRc → Except Error (List Val)) : Prop :=
  ∃ g : PtRc → Option Val, ∀ xs : List PtRc, xs ≠ [] → (∀ x ∈ xs, x.1.Valid) → ∀ B,
    G xs = .ok B ↔ List.Forall₂ (fun x b => g x = some b) xs B

theorem forall₂_map_iff {α β : Type} (f : α → β) (xs : List α) (B : List β) :
    List.Forall₂ (fun x b => some (f x) = some b) xs B ↔ B = xs.map f := by
  induction xs generalizing B with
  | nil => cases B <;> simp
  | cons x xs ih =>
    cases B with
    | nil => simp
    | cons b B =>
      rw [List.forall₂_cons, ih, List.map_cons, List.cons.injEq, Option.some.injEq, @eq_comm _ b]

theorem pw_closed (G : List PtRc → Except Error (List Val)) (f : PtRc → Val)
    (h : ∀ xs, xs ≠ [] → (∀ x ∈ xs, x.1.Valid) → G xs = .ok (xs.map f)) : Pointwise G :=
  ⟨fun x => some (f x), fun xs hne hv B => by
    rw [h xs hne hv, forall₂_map_iff]
    simp [eq_comm]⟩

theorem pw_never (G : List PtRc → Except Error (List Val))
    (h : ∀ xs, xs ≠ [] → (∀ x ∈ xs, x.1.Valid) → ∀ B, G xs ≠ .ok B) : Pointwise G := by
  refine ⟨fun _ => none, fun xs hne hv B => ⟨fun hG => absurd hG (h xs hne hv B), fun hF => ?_⟩⟩
  cases hF with
  | nil => exact absurd rfl hne
  | cons h1 _ => cases h1

open Classical in
theorem pw_cond (G : List PtRc → Except Error (List Val)) (c : PtRc → Prop) (f : PtRc → Val)
    (h : ∀ xs, xs ≠ [] → (∀ x ∈ xs, x.1.Valid) → ∀ B, G xs = .ok B ↔ (∀ x ∈ xs, c x) ∧ B = xs.map f) : Pointwise G := by
  refine ⟨fun x => if c x then some (f x) else none, fun xs hne hv B => ?_⟩
  rw [h xs hne hv]
  clear hne hv h
  induction xs generalizing B with
  | nil => cases B <;> simp
  | cons x xs ih =>
    cases B with
    | nil => simp
    | cons b B =>
      rw [List.forall₂_cons, ← ih]
      by_cases hc : c x
      · simp [hc]
        constructor
        · rintro ⟨h1, rfl, rfl⟩; exact ⟨rfl, h1, rfl⟩
        · rintro ⟨rfl, h1, rfl⟩; exact ⟨h1, rfl, rfl⟩
      · simp [hc]

theorem forall₂_add {α : Type} (g1 g2 : α → Option Val) (xs : List α) (B : List Val) :
    (∃ B1 B2, List.Forall₂ (fun x b => g1 x = some b) xs B1 ∧ List.Forall₂ (fun x b => g2 x = some b) xs B2 ∧ B = addFields B1 B2) ↔
      List.Forall₂ (fun x b => (do let u ← g1 x; let v ← g2 x; pure (Val.add u v) : Option Val) = some b) xs B := by
  induction xs generalizing B with
  | nil =>
    constructor
    · rintro ⟨B1, B2, h1, h2, rfl⟩
      cases h1
      cases h2
      exact List.Forall₂.nil
    · intro h
      cases h
      exact ⟨[], [], .nil, .nil, rfl⟩
  | cons x xs ih =>
    constructor
    · rintro ⟨B1, B2, h1, h2, rfl⟩
      cases h1 with
      | cons a1 r1 =>
        cases h2 with
        | cons a2 r2 =>
          refine List.Forall₂.cons ?_ ((ih _).1 ⟨_, _, r1, r2, rfl⟩)
          rw [a1, a2]
          rfl
    · intro h
      cases h with
      | cons a r =>
        obtain ⟨B1, B2, h1, h2, rfl⟩ := (ih _).2 r
        cases hg1 : g1 x with
        | none => rw [hg1] at a; cases a
        | some u =>
          cases hg2 : g2 x with
          | none => rw [hg1, hg2] at a; cases a
          | some v =>
            rw [hg1, hg2] at a
            cases a
            exact ⟨u :: B1, v :: B2, .cons hg1 h1, .cons hg2 h2, rfl⟩

theorem pw_add (G1 G2 G : List PtRc → Except Error (List Val)) (h1 : Pointwise G1) (h2 : Pointwise G2)
    (h : ∀ xs B, G xs = .ok B ↔ ∃ B1 B2, G1 xs = .ok B1 ∧ G2 xs = .ok B2 ∧ B = addFields B1 B2) : Pointwise G := by
  obtain ⟨g1, h1⟩ := h1
  obtain ⟨g2, h2⟩ := h2
  refine ⟨fun x => (do let u ← g1 x; let v ← g2 x; pure (Val.add u v) : Option Val), fun xs hne hv B => ?_⟩
  rw [h, ← forall₂_add]
  simp only [h1 xs hne hv, h2 xs hne hv]

/-- A part of the model: complete degrees, ascending break points. -/
def Model.Good (m : Model) : Prop :=
  (∃ c, PPoly.Proper m.base c) ∧ (∃ N, 1 ≤ N ∧ m.base.dim = N * (N + 2)) ∧ ∃ src : Source, m.source = src.name

theorem rows_pointwise (b : PPoly.Base) (c : ℕ → ℕ → ℕ → ℝ) (hb : PPoly.Proper b c) :
    ∃ rowf : ℝ → Option (ℕ → ℝ), ∀ times : List ℝ, times ≠ [] →
      PPoly.modelSynthCoeffs b times none none none = .ok (b.dim, times.map rowf) := by
  have hk : PPoly.Known (PPoly.option none) := by
    change "linear" ∈ ["linear", "quadratic", "cubic", "spline", "constant", "off"]
    simp
  have hone : ∀ t : ℝ, ∃ row, PPoly.modelSynthCoeffs b [t] none none none = .ok (b.dim, [row]) := by
    intro t
    obtain ⟨rows, _, row, h1, _, h3, _⟩ := PPoly.C28_values_independent hb [t] [t] none none none hk 0 0 t rfl rfl (Or.inl rfl)
    have hl := rows_length b [t] none none none (b.dim, rows) h1
    obtain ⟨r, rfl⟩ := List.length_eq_one_iff.1 hl
    exact ⟨r, h1⟩
  choose rowf hrow using hone
  refine ⟨rowf, fun times hne => ?_⟩
  obtain ⟨⟨d, rows⟩, hr⟩ := (PPoly.C26_succeeds hb times none none none hne).2 (Or.inl hk)
  have hr' : PPoly.modelSynthCoeffs b times none none none = .ok (d, rows) := hr
  have hd : d = b.dim := (PPoly.C29_truncation b times none none none d rows hr').1
  have hl := rows_length b times none none none (d, rows) hr'
  rw [hr', hd]
  congr 2
  apply List.ext_getElem
  · simpa using hl
  · intro i h1 h2
    have hi : i < times.length := by simpa using h2
    obtain ⟨rows1, rows2, row, e1, e2, e3, e4⟩ := PPoly.C28_values_independent hb times [times[i]] none none none hk i 0 times[i]
      (List.getElem?_eq_getElem hi) rfl (Or.inl rfl)
    have e1' : PPoly.modelSynthCoeffs b times none none none = .ok (PPoly.columns b none, rows1) := e1
    have e2' : PPoly.modelSynthCoeffs b [times[i]] none none none = .ok (PPoly.columns b none, rows2) := e2
    rw [hr'] at e1'
    rw [hrow] at e2'
    injection e1' with e1'
    injection e2' with e2'
    injection e1' with _ e1'
    injection e2' with _ e2'
    subst e1'
    subst e2'
    rw [List.getElem?_eq_getElem h1] at e3
    simp only [List.getElem?_cons_zero] at e4
    rw [List.getElem_map]
    injection e3 with e3
    injection e4 with e4
    rw [e3, e4]

theorem pw_model (a : ℝ) (ha : 0 < a) (m : Model) (hm : m.Good) (move : Pt → Pt) (hmove : ∀ p, p.Valid → (move p).Valid)
    (nmax : Option ℕ) (h0 : nmax ≠ some 0) :
    Pointwise fun xs => m.synthValues a (xs.map fun x => move x.1) nmax none none := by
  obtain ⟨⟨c, hb⟩, ⟨N, hN, hdim⟩, src, hsrc⟩ := hm
  obtain ⟨rowf, hrow⟩ := rows_pointwise m.base c hb
  refine pw_closed _ (fun x => (rowf (move x.1).time).map (fieldAt src a (usedDegree N nmax) (move x.1))) fun xs hne hv => ?_
  rw [model_values a ha m src hsrc N hdim hN (xs.map fun x => move x.1) (by simpa using hne) _ nmax h0 none none _ _
    (hrow _ (by simpa using hne))]
  · congr 1
    apply List.ext_getElem
    · simp
    · intro i h1 h2
      simp
  · intro p hp
    obtain ⟨x, hx, rfl⟩ := List.mem_map.1 hp
    exact hmove _ (hv x hx)

theorem fieldOf_closed (a : ℝ) (ha : 0 < a) (src : Source) (k : ℕ) (row : PtRc → ℕ → ℝ) :
    (∃ f : PtRc → Val, ∀ xs : List PtRc, xs ≠ [] → (∀ x ∈ xs, x.1.Valid) →
      fieldOf a (xs.map Prod.fst) src.name (k, xs.map row) = .ok (xs.map f)) ∨
    (∀ xs : List PtRc, xs ≠ [] → (∀ x ∈ xs, x.1.Valid) → ∀ B, fieldOf a (xs.map Prod.fst) src.name (k, xs.map row) ≠ .ok B) := by
  obtain ⟨n, hn1, hn2⟩ := degree_exists k
  rcases Nat.eq_zero_or_pos n with rfl | hpos
  · right
    intro xs _ _ B
    exact fieldOfRows_nothing _ _ _ _ _ (by omega) B
  · left
    refine ⟨fun x => some (fieldAt src a n x.1 (row x)), fun xs hne hv => ?_⟩
    rw [fieldOf_inferred a ha _ src _ n hpos hn1 hn2 (by simp) (by simpa using hne)]
    · rw [List.zipWith_map, List.zipWith_self]
    · intro p hp
      obtain ⟨x, hx, rfl⟩ := List.mem_map.1 hp
      exact hv x hx

open Classical in
theorem pw_gsm (env : Env) (ha : 0 < env.rSurf) (m : Chaos) (src : Source) (nmax : Option ℕ) :
    Pointwise fun xs => synthValuesGsm env m (xs.map Prod.fst) nmax (some src.name) := by
  have hsrc : ∀ internal : Bool, (some src.name).getD "external" = (if internal then "internal" else "external") ↔
      internal = decide (src = .internal) := by
    intro b
    cases b <;> cases src <;> simp [Synth.Source.name]
  by_cases hall : ∃ g, m.gsm = some g ∧ m.static ≠ none ∧ env.gsmFile.dipole = env.dipole ∧ env.gsmFile.cols = g.dim
  · obtain ⟨g, hg, hst, hd, hc⟩ := hall
    have hok : ∀ times : List ℝ, times ≠ [] → synthCoeffsGsm env m times nmax (some src.name) =
        .ok (min env.gsmFile.rows (clipNmax (nmaxOfDim g.dim).toNat nmax * (clipNmax (nmaxOfDim g.dim).toNat nmax + 2)),
          times.map fun t i => ∑ j ∈ Finset.range g.dim, env.gsmFile.series (decide (src = .internal)) t i j * g.c j) := by
      intro times ht
      exact (C33_result _ _ _ _ _ _).2 ⟨g, hg, hst, ht, hd, hc, decide (src = .internal), (hsrc _).2 rfl, rfl, rfl⟩
    have key : ∀ xs : List PtRc, xs ≠ [] → synthValuesGsm env m (xs.map Prod.fst) nmax (some src.name) =
        fieldOf env.rSurf (xs.map Prod.fst) src.name
          (min env.gsmFile.rows (clipNmax (nmaxOfDim g.dim).toNat nmax * (clipNmax (nmaxOfDim g.dim).toNat nmax + 2)),
            xs.map fun x i => ∑ j ∈ Finset.range g.dim, env.gsmFile.series (decide (src = .internal)) x.1.time i j * g.c j) := by
      intro xs hne
      rw [gsm_source _ _ _ _ _ (src_name src), hok _ (by simpa using hne)]
      simp only [bind, Except.bind, List.map_map, Function.comp_def]
    rcases fieldOf_closed env.rSurf ha src
        (min env.gsmFile.rows (clipNmax (nmaxOfDim g.dim).toNat nmax * (clipNmax (nmaxOfDim g.dim).toNat nmax + 2)))
        (fun x i => ∑ j ∈ Finset.range g.dim, env.gsmFile.series (decide (src = .internal)) x.1.time i j * g.c j) with ⟨f, hf⟩ | hf
    · refine pw_closed _ f fun xs hne hv => ?_
      rw [key xs hne]
      exact hf xs hne hv
    · refine pw_never _ fun xs hne hv B => ?_
      rw [key xs hne]
      exact hf xs hne hv B
  · refine pw_never _ fun xs hne hv B hB => hall ?_
    rw [gsm_source _ _ _ _ _ (src_name src)] at hB
    simp only [bind, Except.bind] at hB
    split at hB
    · cases hB
    · rename_i r hr
      obtain ⟨g, h1, h2, _, h4, h5, _⟩ := (C33_result _ _ _ _ _ _).1 hr
      exact ⟨g, h1, h2, h4, h5⟩

/-- RC values: those of the points, or none. -/
def rcArg (given : Bool) (l : List ℝ) : Option (List ℝ) := if given then some l else none

open Classical in
theorem pw_sm (env : Env) (ha : 0 < env.rSurf) (m : Chaos) (src : Source) (nmax : Option ℕ) (gE gI : Bool) :
    Pointwise fun xs => synthValuesSm env m (xs.map Prod.fst) (rcArg gE (xs.map fun x => x.2.1)) (rcArg gI (xs.map fun x => x.2.2)) nmax
      (some src.name) := by
  have hsrc : ∀ internal : Bool, (some src.name).getD "external" = (if internal then "internal" else "external") ↔
      internal = decide (src = .internal) := by
    intro b
    cases b <;> cases src <;> simp [Synth.Source.name]
  have hrcsel : ∀ a b : Option (List ℝ), (if src.name = "external" then a else b) = if src = .internal then b else a := by
    intro a b
    cases src
    · rw [if_neg (by decide), if_pos rfl]
    · rw [if_pos (show Source.external.name = "external" from rfl), if_neg (by decide)]
  -- the RC values used
  let given : Bool := if src = .internal then gI else gE
  let val : PtRc → ℝ := fun x => if src = .internal then x.2.2 else x.2.1
  let rcf : PtRc → ℝ := fun x => if given then val x else interp env.rcFile.time (if src = .internal then env.rcFile.rcI else env.rcFile.rcE) x.1.time
  let cond : PtRc → Prop := fun x => given = true ∨ (PPoly.first env.rcFile.time ≤ x.1.time ∧ x.1.time ≤ PPoly.last env.rcFile.time)
  have harg : ∀ xs : List PtRc, (if src.name = "external" then rcArg gE (xs.map fun x => x.2.1) else rcArg gI (xs.map fun x => x.2.2)) =
      rcArg given (xs.map val) := by
    intro xs
    rw [hrcsel]
    by_cases hs : src = .internal
    · simp [given, val, hs]
    · simp [given, val, hs]
  have hused : ∀ (xs : List PtRc) (rcs : List ℝ), RcUsed env.rcFile (decide (src = .internal)) (xs.map fun x => x.1.time) (rcArg given (xs.map val)) rcs ↔
      (∀ x ∈ xs, cond x) ∧ rcs = xs.map rcf := by
    intro xs rcs
    unfold RcUsed rcArg
    by_cases hg : given = true
    · have hrcf : rcf = val := by funext x; simp [rcf, hg]
      rw [if_pos hg, hrcf]
      constructor
      · rintro (⟨h1, _⟩ | ⟨h1, _⟩)
        · injection h1 with h1
          exact ⟨fun x _ => Or.inl hg, h1.symm⟩
        · cases h1
      · rintro ⟨_, rfl⟩
        exact Or.inl ⟨rfl, by simp⟩
    · rw [if_neg hg]
      have hrcf : rcf = fun x => interp env.rcFile.time (if src = .internal then env.rcFile.rcI else env.rcFile.rcE) x.1.time := by
        funext x; simp [rcf, hg]
      constructor
      · rintro (⟨h1, _⟩ | ⟨_, h2, rfl⟩)
        · cases h1
        · refine ⟨fun x hx => Or.inr (h2 _ (List.mem_map.2 ⟨x, hx, rfl⟩)), ?_⟩
          rw [hrcf, List.map_map]
          simp only [decide_eq_true_eq]
          rfl
      · rintro ⟨h1, rfl⟩
        refine Or.inr ⟨rfl, ?_, ?_⟩
        · intro t ht
          obtain ⟨x, hx, rfl⟩ := List.mem_map.1 ht
          exact (h1 x hx).resolve_left hg
        · rw [hrcf, List.map_map]
          simp only [decide_eq_true_eq]
          rfl
  by_cases hall : ∃ g d N, m.sm = some g ∧ m.delta = some d ∧ env.smFile.dipole = env.dipole ∧ 1 ≤ N ∧ g.dim = N * (N + 2) ∧ env.smFile.cols = g.dim
  · obtain ⟨g, d, N, hg, hdl, hd, hN, hdim, hc⟩ := hall
    let row : PtRc → ℕ → ℝ := fun x => smRow (decide (src = .internal)) g.dim (env.smFile.series false x.1.time) (env.smFile.series true x.1.time) g.c
      (d.eval x.1.time) (rcf x)
    let k := min env.smFile.rows (usedDegree N nmax * (usedDegree N nmax + 2))
    have hok : ∀ xs : List PtRc, xs ≠ [] → ∀ r, synthCoeffsSm env m ((xs.map Prod.fst).map Pt.time) nmax (some src.name) (rcArg given (xs.map val)) = .ok r ↔
        (∀ x ∈ xs, cond x) ∧ r = (k, xs.map row) := by
      intro xs hne r
      have htimes : (xs.map Prod.fst).map Pt.time = xs.map fun x => x.1.time := by rw [List.map_map]; rfl
      rw [C34_result, htimes]
      constructor
      · rintro ⟨g', d', N', b, rcs, h1, h2, _, _, _, h6, _, h8, h9, h10, h11⟩
        rw [hg] at h1
        cases h1
        rw [hdl] at h2
        cases h2
        have hb := (hsrc b).1 h8
        subst hb
        have hNN : N' = N := by
          rw [hdim] at h6
          nlinarith [lt_trichotomy N N']
        subst hNN
        obtain ⟨h12, rfl⟩ := (hused xs rcs).1 h9
        refine ⟨h12, Prod.ext h10 ?_⟩
        rw [h11, List.zipWith_map, List.zipWith_self]
      · rintro ⟨h1, rfl⟩
        refine ⟨g, d, N, decide (src = .internal), xs.map rcf, hg, hdl, by simpa using hne, hd, hN, hdim, hc, (hsrc _).2 rfl,
          (hused xs _).2 ⟨h1, rfl⟩, rfl, ?_⟩
        rw [List.zipWith_map, List.zipWith_self]
    have key : ∀ xs : List PtRc, xs ≠ [] → ∀ B, synthValuesSm env m (xs.map Prod.fst) (rcArg gE (xs.map fun x => x.2.1))
        (rcArg gI (xs.map fun x => x.2.2)) nmax (some src.name) = .ok B ↔
        (∀ x ∈ xs, cond x) ∧ fieldOf env.rSurf (xs.map Prod.fst) src.name (k, xs.map row) = .ok B := by
      intro xs hne B
      rw [sm_source _ _ _ _ _ _ _ (src_name src), harg]
      constructor
      · intro h
        cases hr : synthCoeffsSm env m ((xs.map Prod.fst).map Pt.time) nmax (some src.name) (rcArg given (xs.map val)) with
        | error e => rw [hr] at h; cases h
        | ok r =>
          obtain ⟨h1, rfl⟩ := (hok xs hne r).1 hr
          rw [hr] at h
          exact ⟨h1, h⟩
      · rintro ⟨h1, h2⟩
        rw [(hok xs hne _).2 ⟨h1, rfl⟩]
        exact h2
    rcases fieldOf_closed env.rSurf ha src k row with ⟨f, hf⟩ | hf
    · refine pw_cond _ cond f fun xs hne hv B => ?_
      rw [key xs hne B, hf xs hne hv]
      simp [eq_comm]
    · refine pw_never _ fun xs hne hv B hB => hf xs hne hv B ((key xs hne B).1 hB).2
  · refine pw_never _ fun xs hne hv B hB => hall ?_
    rw [sm_source _ _ _ _ _ _ _ (src_name src)] at hB
    simp only [bind, Except.bind] at hB
    split at hB
    · cases hB
    · rename_i r hr
      obtain ⟨g, d, N, _, _, h1, h2, _, h4, h5, h6, h7, _⟩ := (C34_result _ _ _ _ _ _ _).1 hr
      exact ⟨g, d, N, h1, h2, h4, h5, h6, h7⟩

theorem pw_source (env : Env) (ha : 0 < env.rSurf) (m : Chaos) (hm : ∀ x, m.tdep = some x ∨ m.static = some x → x.Good) (gE gI : Bool)
    (nms : Option ℕ) (h0 : nms ≠ some 0) (s : String) :
    Pointwise fun xs => sourceField env m (xs.map Prod.fst) (rcArg gE (xs.map fun x => x.2.1)) (rcArg gI (xs.map fun x => x.2.2)) nms s := by
  unfold sourceField
  split_ifs
  · unfold synthValuesTdep
    cases h : m.tdep with
    | none => exact pw_never _ fun xs _ _ B hB => by cases hB
    | some x => exact pw_model env.rSurf ha x (hm x (Or.inl h)) id (fun _ hp => hp) none (by simp)
  · unfold synthValuesStatic
    cases h : m.static with
    | none => exact pw_never _ fun xs _ _ B hB => by cases hB
    | some x =>
      have := pw_model env.rSurf ha x (hm x (Or.inr h)) (fun p => { p with time := PPoly.first x.base.breaks }) (fun _ hp => hp)
        (some (nms.getD 85)) (by cases nms <;> simp_all)
      simpa only [List.map_map, Function.comp_def] using this
  · exact pw_add _ _ _ (pw_gsm env ha m .external none) (pw_gsm env ha m .internal none) fun xs B => gsm_split env m _ none B
  · exact pw_add _ _ _ (pw_sm env ha m .external none gE gI) (pw_sm env ha m .internal none gE gI) fun xs B => sm_split env m _ _ _ none B

theorem pw_fold (names : List String) (f : String → List PtRc → Except Error (List Val)) (hf : ∀ s, Pointwise (f s)) (ks : List String) :
    ∀ G0 : List PtRc → Except Error (List Val), Pointwise G0 →
      Pointwise fun xs => G0 xs >>= ks.foldlM (stepSource names fun s => f s xs) := by
  induction ks with
  | nil =>
    intro G0 h
    have : (fun xs => G0 xs >>= ([] : List String).foldlM (stepSource names fun s => f s xs)) = G0 := by
      funext xs
      simp only [List.foldlM_nil]
      cases G0 xs <;> rfl
    rw [this]
    exact h
  | cons s ks ih =>
    intro G0 h
    have h1 : Pointwise fun xs => G0 xs >>= fun B => stepSource names (fun s => f s xs) B s := by
      by_cases hs : names.contains s = true
      · refine pw_add G0 (f s) _ h (hf s) fun xs B => ?_
        simp only [stepSource, addIf, hs, if_true]
        cases G0 xs with
        | error e => simp [bind, Except.bind]
        | ok B0 =>
          cases f s xs with
          | error e => simp [bind, Except.bind]
          | ok l => simp [bind, Except.bind, eq_comm]
      · have : (fun xs => G0 xs >>= fun B => stepSource names (fun s => f s xs) B s) = G0 := by
          funext xs
          simp only [stepSource, addIf, hs]
          cases G0 xs <;> rfl
        rw [this]
        exact h
    have h2 := ih _ h1
    have : (fun xs => G0 xs >>= (s :: ks).foldlM (stepSource names fun s => f s xs)) =
        fun xs => (G0 xs >>= fun B => stepSource names (fun s => f s xs) B s) >>= ks.foldlM (stepSource names fun s => f s xs) := by
      funext xs
      simp only [List.foldlM_cons]
      cases G0 xs <;> rfl
    rw [this]
    exact h2

theorem pw_call (env : Env) (ha : 0 < env.rSurf) (m : Chaos) (hm : ∀ x, m.tdep = some x ∨ m.static = some x → x.Good)
    (sources : Sources) (nms : Option ℕ) (h0 : nms ≠ some 0) (gE gI : Bool) :
    Pointwise fun xs => call env m (xs.map Prod.fst) (rcArg gE (xs.map fun x => x.2.1)) (rcArg gI (xs.map fun x => x.2.2)) sources nms := by
  have hz : Pointwise fun xs => (.ok ((xs.map Prod.fst).map fun _ => some (0, 0, 0)) : Except Error (List Val)) :=
    pw_closed _ (fun _ => some (0, 0, 0)) fun xs _ _ => by simp only [List.map_map, Function.comp_def]
  let f : String → List PtRc → Except Error (List Val) := fun s xs =>
    sourceField env m (xs.map Prod.fst) (rcArg gE (xs.map fun x => x.2.1)) (rcArg gI (xs.map fun x => x.2.2)) nms s
  have hf : ∀ s, Pointwise (f s) := fun s => pw_source env ha m hm gE gI nms h0 s
  have h := pw_fold sources.names f hf sourceNames _ hz
  have hc : ∀ xs : List PtRc, call env m (xs.map Prod.fst) (rcArg gE (xs.map fun x => x.2.1)) (rcArg gI (xs.map fun x => x.2.2)) sources nms =
      sourceNames.foldlM (stepSource sources.names fun s => f s xs) ((xs.map Prod.fst).map fun _ => some (0, 0, 0)) := fun xs => call_eq _ _ _ _ _ _ _
  clear_value f
  simp only [hc]
  exact h

/-- **C55.** Points do not influence each other. For a model whose internal parts have complete degrees and ascending break points, and for
valid points, a call for many points succeeds exactly if the calls for the single points (with their times and, if supplied, their RC
values) all succeed, and it returns their values. -/
theorem C55_pointwise (env : Env) (ha : 0 < env.rSurf) (m : Chaos) (hm : ∀ x, m.tdep = some x ∨ m.static = some x → x.Good)
    (sources : Sources) (nmaxStatic : Option ℕ) (h0 : nmaxStatic ≠ some 0) (gE gI : Bool) (xs : List PtRc) (hne : xs ≠ [])
    (hv : ∀ x ∈ xs, x.1.Valid) (B : List Val) :
    call env m (xs.map Prod.fst) (rcArg gE (xs.map fun x => x.2.1)) (rcArg gI (xs.map fun x => x.2.2)) sources nmaxStatic = .ok B ↔
      List.Forall₂ (fun x b => call env m [x.1] (rcArg gE [x.2.1]) (rcArg gI [x.2.2]) sources nmaxStatic = .ok [b]) xs B := by
  obtain ⟨g, hcall⟩ := pw_call env ha m hm sources nmaxStatic h0 gE gI
  rw [hcall xs hne hv]
  have hone : ∀ x ∈ xs, ∀ b, call env m [x.1] (rcArg gE [x.2.1]) (rcArg gI [x.2.2]) sources nmaxStatic = .ok [b] ↔ g x = some b := by
    intro x hx b
    have := hcall [x] (by simp) (by simpa using hv x hx) [b]
    simpa using this
  clear hcall hne hv
  induction xs generalizing B with
  | nil => cases B <;> simp
  | cons x xs ih =>
    cases B with
    | nil => simp
    | cons b B =>
      rw [List.forall₂_cons, List.forall₂_cons, ← hone x List.mem_cons_self]
      exact and_congr_right fun _ => ih B fun y hy => hone y (List.mem_cons_of_mem _ hy)

/-! ### A concrete call -/

/-- A point on the equator in the model interval. -/
noncomputable def exPt : Pt := ⟨5, 6371.2, 90, 0⟩

theorem exPt_valid : exPt.Valid := by
  unfold Pt.Valid exPt
  norm_num

theorem ex_good (x : Model) (h : exChaos.tdep = some x ∨ exChaos.static = some x) : x.Good := by
  have hsort : PPoly.Sorted ([0, 10] : List ℝ) := by
    intro i j hij hj
    have : j = 0 ∨ j = 1 := by simp at hj; omega
    rcases this with rfl | rfl
    · have : i = 0 := by omega
      subst this
      exact le_rfl
    · have : i = 0 ∨ i = 1 := by omega
      rcases this with rfl | rfl <;> norm_num
  rcases h with h | h
  · simp only [exChaos, Chaos.init, Option.map_some, Option.some.injEq] at h
    subst h
    exact ⟨⟨_, rfl, by decide, by decide, hsort, by norm_num [PPoly.Base.init, PPoly.first, PPoly.last]⟩, ⟨1, le_rfl, rfl⟩, .internal, rfl⟩
  · simp only [exChaos, Chaos.init, Option.map_some, Option.some.injEq] at h
    subst h
    refine ⟨⟨_, rfl, by decide, by decide, ?_, by norm_num [PPoly.Base.init, PPoly.first, PPoly.last]⟩, ⟨1, le_rfl, rfl⟩, .internal, rfl⟩
    simpa [PPoly.Base.init, PPoly.first, PPoly.last] using hsort

/-- The GSM coefficients of the concrete model: linear, truncation and exceptions are not empty claims. -/
theorem ex_gsm (times : List ℝ) (h : times ≠ []) (src : Source) : ∃ rows, synthCoeffsGsm exEnv exChaos times none (some src.name) = .ok (3, rows) := by
  refine ⟨_, (C33_result _ _ _ _ _ _).2 ⟨_, rfl, by simp [exChaos, Chaos.init], h, rfl, rfl, decide (src = .internal), ?_, ?_, rfl⟩⟩
  · cases src <;> rfl
  · rw [show (⟨3, fun _ => 4⟩ : Gauss).dim = 1 * (1 + 2) from rfl, hdimN]
    rfl

theorem ex_sm (src : Source) : ∃ rows, synthCoeffsSm exEnv exChaos [5] none (some src.name) none = .ok (3, rows) := by
  refine ⟨_, (C34_result _ _ _ _ _ _ _).2 ⟨_, _, 1, decide (src = .internal), _, rfl, rfl, by simp, rfl, le_rfl, rfl, rfl, ?_,
    Or.inr ⟨rfl, ?_, rfl⟩, rfl, rfl⟩⟩
  · cases src <;> rfl
  · intro t ht
    simp only [List.mem_singleton] at ht
    subst ht
    constructor <;> norm_num [exEnv, PPoly.first, PPoly.last]

theorem ex_model (x : Model) (hx : x.Good) (nmax : Option ℕ) (h0 : nmax ≠ some 0) (p : Pt) (hp : p.Valid) :
    ∃ B, x.synthValues 6371.2 [p] nmax none none = .ok B := by
  obtain ⟨⟨c, hb⟩, ⟨N, hN, hdim⟩, src, hsrc⟩ := hx
  obtain ⟨rowf, hrow⟩ := rows_pointwise x.base c hb
  obtain ⟨B, hB, -⟩ := C56_model 6371.2 (by norm_num) x src hsrc N hdim hN [p] (by simp) (by simpa using hp) nmax h0 none none _ _
    (hrow _ (by simp))
  exact ⟨B, hB⟩

/-- All four sources of the concrete model have a value at the point, so that C32, C33, C35, C55 and C56 speak about it. -/
theorem ex_call (sources : Sources) :
    (∃ B, synthValuesGsm exEnv exChaos [exPt] none none = .ok B) ∧ (∃ B, synthValuesSm exEnv exChaos [exPt] none none none none = .ok B) ∧
    ∃ b, call exEnv exChaos [exPt] none none sources none = .ok [b] := by
  have hp : ∀ p ∈ [exPt], p.Valid := by simpa using exPt_valid
  have hr : 0 < exEnv.rSurf := by norm_num [exEnv]
  have hg : ∀ src : Source, ∃ B : List (ℝ × ℝ × ℝ), synthValuesGsm exEnv exChaos [exPt] none (some src.name) = .ok (B.map some) := by
    intro src
    obtain ⟨rows, h⟩ := ex_gsm [exPt.time] (by simp) src
    obtain ⟨B, hB, -⟩ := C56_gsm exEnv hr exChaos src [exPt] (by simp) hp none 3 1 rows le_rfl (by norm_num) (by norm_num) h
    exact ⟨B, hB⟩
  have hs : ∀ src : Source, ∃ B : List (ℝ × ℝ × ℝ), synthValuesSm exEnv exChaos [exPt] none none none (some src.name) = .ok (B.map some) := by
    intro src
    obtain ⟨rows, h⟩ := ex_sm src
    obtain ⟨B, hB, -⟩ := C56_sm exEnv hr exChaos src [exPt] (by simp) hp none none none 3 1 rows le_rfl (by norm_num) (by norm_num)
      (by rw [ite_self]; exact h)
    exact ⟨B, hB⟩
  obtain ⟨ge, hge⟩ := hg .external
  obtain ⟨gi, hgi⟩ := hg .internal
  obtain ⟨se, hse⟩ := hs .external
  obtain ⟨si, hsi⟩ := hs .internal
  have g := (gsm_split exEnv exChaos [exPt] none _).2 ⟨_, _, hge, hgi, rfl⟩
  have s := (sm_split exEnv exChaos [exPt] none none none _).2 ⟨_, _, hse, hsi, rfl⟩
  have ht : ∃ B, synthValuesTdep exEnv exChaos [exPt] none none none = .ok B :=
    ex_model _ (ex_good _ (Or.inl rfl)) none (by simp) exPt exPt_valid
  have hst : ∃ B, synthValuesStatic exEnv exChaos [exPt] (some 85) none none = .ok B :=
    ex_model _ (ex_good _ (Or.inr rfl)) (some 85) (by simp) _ exPt_valid
  obtain ⟨t, ht⟩ := ht
  obtain ⟨st, hst⟩ := hst
  refine ⟨⟨_, g⟩, ⟨_, s⟩, ?_⟩
  obtain ⟨B, hB, hl, -⟩ := C32_sum exEnv exChaos [exPt] none none sources none
    (fun n => if n = "tdep" then t else if n = "static" then st else if n = "gsm" then addFields (ge.map some) (gi.map some)
      else addFields (se.map some) (si.map some)) (fun _ => ht) (fun _ => hst) (fun _ => g) (fun _ => s)
  obtain ⟨b, rfl⟩ := List.length_eq_one_iff.1 hl
  exact ⟨b, hB⟩

end ChaosMagPy.Chaos
