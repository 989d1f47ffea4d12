import Verif.Props.RotateFft
import Verif.Props.ChaosShc
/-!
# C63 continued: external fields in GSM and SM computed with the file, induced part, exceptions
-/
namespace ChaosMagPy.RotateFft
open ChaosMagPy.Fourier
open ChaosMagPy.Chaos (SpectrumFile)
open ChaosMagPy.Analysis (rotateGauss)
open ChaosMagPy.Spec (GaussRule RightHanded degreePart potExt potInt rad)

variable {leggauss : ℕ → List (ℝ × ℝ)} {argsort : ℕ → (ℕ → ℂ) → List ℕ} {config : ℝ × ℝ × ℝ} {conductivity : List (ℝ × ℝ)} {a : Args}

/-- Coordinates of a point in the reference system. -/
theorem transform_one (h : Good leggauss argsort config conductivity a) (n : ℕ) (hn : n < a.samples) (b : Coord.Base)
    (hb : frame config (a.reference.getD "gsm") (a.time n) = some b) (theta phi : ℝ) :
    Coord.transformPoints config (a.reference.getD "gsm") .none false [(theta, phi, a.time n)] = .ok [some (Coord.geoToBase theta phi b false)] := by
  unfold Coord.transformPoints
  have hs : Coord.sunCheck [a.time n] = true := h.window n hn
  simp only [List.map_cons, List.map_nil]
  rw [referenceBase_frame config _ h.reference, if_pos hs]
  simp only [bind, Except.bind, pure, Except.pure, List.map_cons, List.map_nil, List.zipWith_cons_cons, List.zipWith_nil_left, hb, Option.map_some]

/-- The matrices of a scaled file with an odd number of samples from time zero. -/
theorem rot_matrix (h : Good leggauss argsort config conductivity a) (h0 : a.start.getD 0 = 0) (hs : a.scaled = some true) (hodd : a.samples % 2 = 1) :
    ∃ f, rotateGaussFft leggauss argsort config conductivity a = .ok f ∧ f.dipole = config ∧ f.rows = a.nmax * (a.nmax + 2) ∧
      f.cols = a.kmax * (a.kmax + 2) ∧ ∀ j < a.samples, ∃ b M, frame config (a.reference.getD "gsm") (a.time j) = some b ∧
        RightHanded b.e1 b.e2 b.e3 ∧ rotateGauss leggauss a.nmax a.kmax b = .ok M ∧ M.length = a.kmax * (a.kmax + 2) ∧
        ∀ i l, f.rot (a.time j) i l = (M.getD l []).getD i 0 := by
  obtain ⟨f, R, q, hf, hR', -, h1, h2, h3, hsc, -, -⟩ := fft_ok h
  obtain ⟨f', R', hf', -, -, -, hR, hS⟩ := C63_sampling h h0
  rw [hf] at hf'
  cases hf'
  refine ⟨f, hf, h1, h2, h3, fun j hj => ?_⟩
  obtain ⟨b, hb, hrh, hM⟩ := hR j hj
  obtain ⟨M, hM', hl, -⟩ := Analysis.C57_shape h.nmax h.kmax h.rule hrh
  rw [hM] at hM'
  cases hM'
  refine ⟨b, R' j, hb, hrh, hM, hl, fun i l => ?_⟩
  unfold SpectrumFile.rot
  have hm : Matching (a.scaled.getD false) (.array f.scaled) := by
    rw [hsc, hs]
    exact ⟨rfl, rfl⟩
  rw [hS _ hm j hj i l, if_neg (by omega), add_zero]
  rfl

/-- Product with the matrix of the file, as potential. -/
theorem rot_potential (h : Good leggauss argsort config conductivity a) {f : SpectrumFile} {j : ℕ} (hj : j < a.samples) {b : Coord.Base} {M : List (List ℝ)}
    (hb : frame config (a.reference.getD "gsm") (a.time j) = some b) (hrh : RightHanded b.e1 b.e2 b.e3)
    (hM : rotateGauss leggauss a.nmax a.kmax b = .ok M) (hl : M.length = a.kmax * (a.kmax + 2))
    (hrot : ∀ i l, f.rot (a.time j) i l = (M.getD l []).getD i 0) (c : ℕ → ℝ) (theta phi : ℝ) :
    ∃ theta' phi', Coord.transformPoints config (a.reference.getD "gsm") .none false [(theta, phi, a.time j)] = .ok [some (theta', phi')] ∧
      ∀ radius r, potExt radius (fun i => ∑ l ∈ Finset.range (a.kmax * (a.kmax + 2)), f.rot (a.time j) i l * c l) 1 (min a.nmax a.kmax) (min a.nmax a.kmax) r (rad theta) (rad phi) =
        potExt radius c 1 (min a.nmax a.kmax) (min a.nmax a.kmax) r (rad theta') (rad phi') := by
  refine ⟨(Coord.geoToBase theta phi b false).1, (Coord.geoToBase theta phi b false).2, transform_one h j hj b hb theta phi, fun radius r => ?_⟩
  have hp := Coord.geoToBase_forward b hrh theta phi
  have := (Analysis.C57_potential h.nmax h.kmax h.rule hrh hM c radius r theta phi _ _ hp (min a.nmax a.kmax) (min_le_left _ _)).1
  rw [show min (min a.nmax a.kmax) a.kmax = min a.nmax a.kmax by omega] at this
  rw [← this]
  congr 1
  funext i
  unfold Spec.matVec
  rw [hl]
  exact Finset.sum_congr rfl fun l _ => by rw [hrot]

theorem min_dim (n k : ℕ) : min (n * (n + 2)) (k * (k + 2)) = min n k * (min n k + 2) := by
  rcases le_total n k with h | h
  · rw [min_eq_left h, min_eq_left (Nat.mul_le_mul h (by omega))]
  · rw [min_eq_right h, min_eq_right (Nat.mul_le_mul h (by omega))]

/-- **C63** (GSM). Write the file for reference GSM with scaled components and an odd number of samples, and let `synth_coeffs_gsm` read it:
at every sampling time the external coefficients in the Earth-fixed frame give at every point of space the potential which the GSM
coefficients of the model have at the GSM coordinates of that point. -/
theorem C63_gsm (h : Good leggauss argsort config conductivity a) (h0 : a.start.getD 0 = 0) (hs : a.scaled = some true) (hodd : a.samples % 2 = 1)
    (href : a.reference.getD "gsm" = "gsm") : ∃ f, rotateGaussFft leggauss argsort config conductivity a = .ok f ∧
    ∀ (env : Chaos.Env) (m : Chaos.Chaos) (c : ℕ → ℝ), env.gsmFile = f → env.dipole = config → m.gsm = some ⟨a.kmax * (a.kmax + 2), c⟩ →
      m.static ≠ none → ∀ j < a.samples, ∃ row,
        Chaos.synthCoeffsGsm env m [a.time j] none (some "external") = .ok (min a.nmax a.kmax * (min a.nmax a.kmax + 2), [row]) ∧
        ∀ theta phi, ∃ theta' phi', Coord.transformPoints config "gsm" .none false [(theta, phi, a.time j)] = .ok [some (theta', phi')] ∧
          ∀ radius r, potExt radius row 1 (min a.nmax a.kmax) (min a.nmax a.kmax) r (rad theta) (rad phi) =
            potExt radius c 1 (min a.nmax a.kmax) (min a.nmax a.kmax) r (rad theta') (rad phi') := by
  obtain ⟨f, hf, h1, h2, h3, hR⟩ := rot_matrix h h0 hs hodd
  refine ⟨f, hf, fun env m c he hd hg hst j hj => ?_⟩
  subst he
  obtain ⟨b, M, hb, hrh, hM, hl, hrot⟩ := hR j hj
  refine ⟨fun i => ∑ l ∈ Finset.range (a.kmax * (a.kmax + 2)), env.gsmFile.rot (a.time j) i l * c l, ?_, fun theta phi => ?_⟩
  · rw [Chaos.C33_result]
    refine ⟨_, hg, hst, by simp, by rw [h1, hd], h3, false, rfl, ?_, ?_⟩
    · rw [h2]
      simp only
      rw [Chaos.nmax_dim]
      exact (min_dim _ _).symm
    · simp only [List.map_cons, List.map_nil, Chaos.rot_series]
  · have := rot_potential h hj hb hrh hM hl hrot c theta phi
    rw [href] at this
    exact this

/-- **C63** (SM). The same for reference SM and `synth_coeffs_sm`: the coefficients whose first three are `RC * c + delta` and the others `c`
have, at the SM coordinates of a point, the potential which the returned coefficients have at the point. -/
theorem C63_sm (h : Good leggauss argsort config conductivity a) (h0 : a.start.getD 0 = 0) (hs : a.scaled = some true) (hodd : a.samples % 2 = 1)
    (href : a.reference.getD "gsm" = "sm") : ∃ f, rotateGaussFft leggauss argsort config conductivity a = .ok f ∧
    ∀ (env : Chaos.Env) (m : Chaos.Chaos) (c : ℕ → ℝ) (d : Chaos.Delta) (rc : ℝ), env.smFile = f → env.dipole = config → m.sm = some ⟨a.kmax * (a.kmax + 2), c⟩ →
      m.delta = some d → ∀ j < a.samples, ∃ row,
        Chaos.synthCoeffsSm env m [a.time j] none (some "external") (some [rc]) = .ok (min a.nmax a.kmax * (min a.nmax a.kmax + 2), [row]) ∧
        ∀ theta phi, ∃ theta' phi', Coord.transformPoints config "sm" .none false [(theta, phi, a.time j)] = .ok [some (theta', phi')] ∧
          ∀ radius r, potExt radius row 1 (min a.nmax a.kmax) (min a.nmax a.kmax) r (rad theta) (rad phi) =
            potExt radius (fun i => if i < 3 then rc * c i + d.eval (a.time j) i else c i) 1 (min a.nmax a.kmax) (min a.nmax a.kmax) r (rad theta') (rad phi') := by
  obtain ⟨f, hf, h1, h2, h3, hR⟩ := rot_matrix h h0 hs hodd
  refine ⟨f, hf, fun env m c d rc he hd hg hst j hj => ?_⟩
  subst he
  obtain ⟨b, M, hb, hrh, hM, hl, hrot⟩ := hR j hj
  refine ⟨fun i => ∑ l ∈ Finset.range (a.kmax * (a.kmax + 2)), env.smFile.rot (a.time j) i l * (if l < 3 then rc * c l + d.eval (a.time j) l else c l), ?_, fun theta phi => ?_⟩
  · rw [Chaos.C34_result]
    refine ⟨_, d, a.kmax, false, [rc], hg, hst, by simp, by rw [h1, hd], h.kmax, rfl, h3, rfl, Or.inl ⟨rfl, rfl⟩, ?_, ?_⟩
    · rw [h2]
      exact (min_dim _ _).symm
    · simp only [List.zipWith_cons_cons, List.zipWith_nil_left]
      congr 1
      funext i
      unfold Chaos.smRow Chaos.smVector
      simp only [Bool.false_eq_true, if_false, Chaos.rot_series]
  · have := rot_potential h hj hb hrh hM hl hrot (fun i => if i < 3 then rc * c i + d.eval (a.time j) i else c i) theta phi
    rw [href] at this
    exact this

/-- **C63** (induced part). The induced matrices are, at every time, the Fourier series of the rotation matrices with each component of
positive frequency multiplied by the response; by default that of the conductivity model for the spherical harmonic degree of the row, and the
constant term is dropped. -/
theorem C63_induced (h : Good leggauss argsort config conductivity a) (hs : a.scaled = some true) (hq : a.qfunc = none) :
    ∃ f R, rotateGaussFft leggauss argsort config conductivity a = .ok f ∧ (∀ n < a.samples, IsMatrix leggauss config a n (R n)) ∧
      ∀ (n i l : ℕ) (t : ℝ), 1 ≤ n → n ≤ a.nmax → n ^ 2 - 1 ≤ i → i < (n + 1) ^ 2 - 1 →
        f.rot t i l = (dft a.samples (series R i l) 0).re +
          2 * ∑ k ∈ Finset.Ico 1 (halfLen a.samples), (dft a.samples (series R i l) k * wave a.samples a.stepSize k t).re ∧
        f.rotInd t i l = 2 * ∑ k ∈ Finset.Ico 1 (halfLen a.samples),
          ((QResponse.respond n (1 / (k / (a.samples * a.stepSize * 3600))) (conductivity.map Prod.snd) (conductivity.map fun r => 6371.2 - r.1)).Q *
            dft a.samples (series R i l) k * wave a.samples a.stepSize k t).re := by
  obtain ⟨f, R, q, hf, hR, hq', -, -, -, hsc, hE, hI⟩ := fft_ok h
  refine ⟨f, R, hf, hR, fun n i l t h1 h2 h3 h4 => ?_⟩
  have hw0 : ∀ read, weight (a.scaled.getD false) read 0 = 1 := fun _ => if_pos rfl
  have hw : ∀ k ∈ Finset.Ico 1 (halfLen a.samples), weight (a.scaled.getD false) (.array f.scaled) k = 2 := by
    intro k hk
    have := (Finset.mem_Ico.1 hk).1
    unfold weight
    rw [if_neg (by omega), hs]
    simp [Scaled.isFalse]
  have hh : 0 < halfLen a.samples := by unfold halfLen; omega
  have hwave : wave a.samples a.stepSize 0 t = 1 := by
    unfold wave
    simp
    rfl
  have hsplit : ∀ F : ℕ → ℝ, ∑ k ∈ Finset.range (halfLen a.samples), F k = F 0 + ∑ k ∈ Finset.Ico 1 (halfLen a.samples), F k := by
    intro F
    rw [Finset.range_eq_Ico, Finset.sum_eq_sum_Ico_succ_bot hh]
  have hresp : ∀ k < halfLen a.samples, q i k = if 0 < k then
      (QResponse.respond n (1 / (k / (a.samples * a.stepSize * 3600))) (conductivity.map Prod.snd) (conductivity.map fun r => 6371.2 - r.1)).Q else 0 := by
    intro k hk
    unfold responses at hq'
    rw [hq] at hq'
    obtain ⟨table, ht, -, hT⟩ := QResponse.C46_table conductivity (h.response hq) ((List.range (halfLen a.samples)).map (frequencyFull a.samples a.stepSize)) a.nmax
    simp only [ht, ofQ] at hq'
    injection hq' with hq'
    subst hq'
    simp only
    rw [C44_response_degree n i h1 h3 h4, show ((n : ℤ) - 1).toNat = n - 1 by omega, show table.getD (n - 1) [] = _ from by rw [List.getD_eq_getElem?_getD, hT n h1 h2, Option.getD_some],
      List.getD_eq_getElem?_getD, List.getElem?_map, List.getElem?_map, List.getElem?_range hk, Option.map_some, Option.map_some, Option.getD_some]
    have hf' : frequencyFull a.samples a.stepSize k = k / (a.samples * a.stepSize * 3600) := by
      unfold frequencyFull
      rw [div_div, div_div, mul_assoc]
    rw [hf']
    have hpos : 0 < (a.samples : ℝ) * a.stepSize * 3600 := by
      have := h.samples
      have := h.step
      positivity
    by_cases hk0 : 0 < k
    · have h0 : (0 : ℝ) < k / (a.samples * a.stepSize * 3600) := by
        have : (0 : ℝ) < k := by exact_mod_cast hk0
        positivity
      rw [if_pos h0, if_pos hk0]
    · obtain rfl : k = 0 := by omega
      simp
  constructor
  · unfold SpectrumFile.rot
    rw [hE, hsplit, hw0, hwave, Finset.mul_sum]
    congr 1
    · simp
    · exact Finset.sum_congr rfl fun k hk => by rw [hw k hk, one_mul]
  · unfold SpectrumFile.rotInd
    rw [hI, hsplit, hresp 0 hh, if_neg (by omega), Finset.mul_sum]
    rw [show weight (a.scaled.getD false) (.array f.scaled) 0 * ((0 : ℂ) * dft a.samples (series R i l) 0 * wave a.samples a.stepSize 0 t).re = 0 by simp, zero_add]
    refine Finset.sum_congr rfl fun k hk => ?_
    rw [hw k hk, hresp k (Finset.mem_Ico.1 hk).2, if_pos (show 0 < k from (Finset.mem_Ico.1 hk).1)]

/-- **C63** (own response). With `qfunc` the components of row `i` are multiplied with `qfunc(freq, i)`, where `freq` are the frequencies in 1/s;
the constant term too. -/
theorem C63_qfunc (h : Good leggauss argsort config conductivity a) (hs : a.scaled = some true) (Q : List ℝ → ℕ → ℕ → ℂ) (hq : a.qfunc = some Q) :
    ∃ f R, rotateGaussFft leggauss argsort config conductivity a = .ok f ∧ (∀ n < a.samples, IsMatrix leggauss config a n (R n)) ∧
      ∀ (i l : ℕ) (t : ℝ), f.rotInd t i l = ∑ k ∈ Finset.range (halfLen a.samples), (if k = 0 then 1 else 2) *
        (Q ((List.range (halfLen a.samples)).map fun k : ℕ => (k : ℝ) / a.samples / a.stepSize / 3600) i k *
          dft a.samples (series R i l) k * wave a.samples a.stepSize k t).re := by
  obtain ⟨f, R, q, hf, hR, hq', -, -, -, -, -, hI⟩ := fft_ok h
  refine ⟨f, R, hf, hR, fun i l t => ?_⟩
  unfold responses at hq'
  rw [hq] at hq'
  simp only at hq'
  injection hq' with hq'
  subst hq'
  unfold SpectrumFile.rotInd
  rw [hI]
  refine Finset.sum_congr rfl fun k _ => ?_
  have : weight (a.scaled.getD false) (.array f.scaled) k = if k = 0 then 1 else 2 := by
    unfold weight
    rw [hs]
    simp [Scaled.isFalse]
  rw [this]
  rfl

/-- **C63** (unknown reference). -/
theorem C63_reference (h1 : a.reference.getD "gsm" ≠ "gsm") (h2 : a.reference.getD "gsm" ≠ "sm") :
    rotateGaussFft leggauss argsort config conductivity a = .error .valueError := by
  unfold rotateGaussFft bases
  simp only [h1, h2, or_self, if_false, bind, Except.bind]

/-- **C63** (times). A sampling time outside of the window of the position of the sun is refused. -/
theorem C63_window (hr : a.reference.getD "gsm" = "gsm" ∨ a.reference.getD "gsm" = "sm") (h : Coord.sunCheck a.times = false) :
    rotateGaussFft leggauss argsort config conductivity a = .error .assertionError := by
  unfold rotateGaussFft bases
  simp only
  rw [if_pos hr, referenceBase_frame config _ hr, h]
  simp only [Bool.false_eq_true, if_false, ofCoord, bind, Except.bind]

theorem stages_filter (h : Good leggauss argsort config conductivity a) (F : ℕ) : ∃ mats q,
    bases config { a with filter := some F } = .ok ((List.range a.samples).map fun n => frame config (a.reference.getD "gsm") (a.time n)) ∧
    ((List.range a.samples).map fun n => frame config (a.reference.getD "gsm") (a.time n)).mapM (matrixAt leggauss { a with filter := some F }) = .ok mats ∧
    responses conductivity { a with filter := some F } = .ok q := by
  obtain ⟨R, -, hm⟩ := matrices_ok h
  obtain ⟨f, R', q, -, -, hq, -⟩ := fft_ok h
  have hb := bases_ok h
  exact ⟨_, q, hb, hm, hq⟩

/-- **C63** (filter). Any number of components up to `N // 2 + 1` can be asked for, and so many are written; more are refused with ValueError. -/
theorem C63_filter (h : Good leggauss argsort config conductivity a) (F : ℕ) :
    (F ≤ a.samples / 2 + 1 → ∃ f, rotateGaussFft leggauss argsort config conductivity { a with filter := some F } = .ok f ∧ f.k = F ∧ f.kInd = F) ∧
    (a.samples / 2 + 1 < F → rotateGaussFft leggauss argsort config conductivity { a with filter := some F } = .error .valueError) := by
  obtain ⟨mats, q, h1, h2, h3⟩ := stages_filter h F
  have hs : Args.samples { a with filter := some F } = a.samples := rfl
  constructor
  · intro hF
    refine ⟨_, by
      unfold rotateGaussFft
      simp only [h1, h2, h3, bind, Except.bind, pure, Except.pure, throw, throwThe, MonadExceptOf.throw, Option.getD_some, hs]
      rw [if_neg (by unfold halfLen; omega)], rfl, rfl⟩
  · intro hF
    unfold rotateGaussFft
    simp only [h1, h2, h3, bind, Except.bind, pure, Except.pure, throw, throwThe, MonadExceptOf.throw, Option.getD_some, hs]
    rw [if_pos (by unfold halfLen; omega)]

end ChaosMagPy.RotateFft
