import Verif.Model.RotateFft
import Verif.Props.Rotation
import Verif.Props.Fourier
import Verif.Props.QResponse
import Verif.Props.ChaosSm
/-!
# C63: from the rotation matrices to the external field
-/
namespace ChaosMagPy.RotateFft
open ChaosMagPy.Fourier
open ChaosMagPy.Chaos (SpectrumFile)
open ChaosMagPy.Analysis (rotateGauss)
open ChaosMagPy.Spec (GaussRule RightHanded degreePart potExt potInt rad)

/-- Base vectors of the reference systems GSM and SM at one time; `none` if the dipole is parallel to the direction of the sun. -/
noncomputable def frame (config : ℝ × ℝ × ℝ) (reference : String) (t : ℝ) : Option Coord.Base :=
  (Coord.dipoleArray config.1 config.2.1 config.2.2).bind (if reference = "gsm" then Coord.baseGsm t else Coord.baseSm t)

theorem referenceBase_frame (config : ℝ × ℝ × ℝ) (reference : String) (h : reference = "gsm" ∨ reference = "sm") (times : List ℝ) :
    Coord.referenceBase config reference .none times =
      if Coord.sunCheck times then .ok (times.map (frame config reference)) else .error .assertionError := by
  unfold Coord.referenceBase frame
  have hd : Coord.dipoleToVec config .none = .ok (Coord.dipoleArray config.1 config.2.1 config.2.2) := rfl
  rcases h with rfl | rfl
  · simp only [hd, bind, Except.bind, pure, Except.pure, throw, throwThe, MonadExceptOf.throw, if_true]
  · rw [if_neg (by decide), if_pos rfl]
    have hne : ¬ ("sm" = "gsm") := by decide
    simp only [hd, bind, Except.bind, pure, Except.pure, throw, throwThe, MonadExceptOf.throw, hne, if_false]

theorem frame_rightHanded {config : ℝ × ℝ × ℝ} {reference : String} (h : reference = "gsm" ∨ reference = "sm") {t : ℝ} {b : Coord.Base}
    (hs : Coord.sunCheck [t] = true) (hb : frame config reference t = some b) : RightHanded b.e1 b.e2 b.e3 := by
  rcases Coord.ref_cases config reference .none [t] with ⟨e, he⟩ | ⟨f, hf, hr⟩
  · rw [referenceBase_frame config reference h, if_pos hs] at he
    cases he
  · rw [referenceBase_frame config reference h, if_pos hs] at hf
    have : frame config reference t = f t := by simpa using hf
    exact hr t b (by rw [← this, hb])

/-- Arguments for which the function computes rotation matrices: degrees at least one, samples in the time window of `sun_position` and not
with the dipole parallel to the direction of the sun, all Fourier components kept. -/
structure Good (leggauss : ℕ → List (ℝ × ℝ)) (argsort : ℕ → (ℕ → ℂ) → List ℕ) (config : ℝ × ℝ × ℝ) (conductivity : List (ℝ × ℝ)) (a : Args) : Prop where
  nmax : 1 ≤ a.nmax
  kmax : 1 ≤ a.kmax
  rule : GaussRule ((a.nmax + a.kmax + 1) / 2 + 1) (leggauss ((a.nmax + a.kmax + 1) / 2 + 1))
  sort : ∀ x, IsArgsortDesc (halfLen a.samples) x (argsort (halfLen a.samples) x)
  samples : 0 < a.samples
  step : 0 < a.stepSize
  filter : a.filter = none
  reference : a.reference.getD "gsm" = "gsm" ∨ a.reference.getD "gsm" = "sm"
  window : ∀ n < a.samples, Coord.sunCheck [sampleTime a.stepSize (a.start.getD 0) n] = true
  frames : ∀ n < a.samples, frame config (a.reference.getD "gsm") (sampleTime a.stepSize (a.start.getD 0) n) ≠ none
  response : a.qfunc = none → conductivity ≠ []

variable {leggauss : ℕ → List (ℝ × ℝ)} {argsort : ℕ → (ℕ → ℂ) → List ℕ} {config : ℝ × ℝ × ℝ} {conductivity : List (ℝ × ℝ)} {a : Args}

/-- Time of sample `n`. -/
noncomputable def Args.time (a : Args) (n : ℕ) : ℝ := sampleTime a.stepSize (a.start.getD 0) n

/-- The matrix at sample `n`. -/
def IsMatrix (leggauss : ℕ → List (ℝ × ℝ)) (config : ℝ × ℝ × ℝ) (a : Args) (n : ℕ) (M : List (List ℝ)) : Prop :=
  ∃ b, frame config (a.reference.getD "gsm") (a.time n) = some b ∧ RightHanded b.e1 b.e2 b.e3 ∧ rotateGauss leggauss a.nmax a.kmax b = .ok M

theorem sunCheck_all {times : List ℝ} (h : ∀ t ∈ times, Coord.sunCheck [t] = true) : Coord.sunCheck times = true := by
  unfold Coord.sunCheck at *
  simp only [List.all_cons, List.all_nil, Bool.and_true, Bool.and_eq_true] at h
  rw [Bool.and_eq_true, List.all_eq_true, List.all_eq_true]
  exact ⟨fun t ht => (h t ht).1, fun t ht => (h t ht).2⟩

theorem bases_ok (h : Good leggauss argsort config conductivity a) :
    bases config a = .ok ((List.range a.samples).map fun n => frame config (a.reference.getD "gsm") (a.time n)) := by
  unfold bases
  simp only
  rw [if_pos h.reference, referenceBase_frame config _ h.reference, if_pos]
  · unfold Args.times Args.time
    rw [List.map_map]
    rfl
  · apply sunCheck_all
    intro t ht
    unfold Args.times at ht
    obtain ⟨n, hn, rfl⟩ := List.mem_map.1 ht
    exact h.window n (List.mem_range.1 hn)

theorem matrices_ok (h : Good leggauss argsort config conductivity a) : ∃ R : ℕ → List (List ℝ), (∀ n < a.samples, IsMatrix leggauss config a n (R n)) ∧
    ((List.range a.samples).map fun n => frame config (a.reference.getD "gsm") (a.time n)).mapM (matrixAt leggauss a) = .ok ((List.range a.samples).map R) := by
  have hex : ∀ n, ∃ M, n < a.samples → IsMatrix leggauss config a n M ∧ matrixAt leggauss a (frame config (a.reference.getD "gsm") (a.time n)) = .ok M := by
    intro n
    by_cases hn : n < a.samples
    · cases hf : frame config (a.reference.getD "gsm") (a.time n) with
      | none => exact absurd hf (h.frames n hn)
      | some b =>
        have hr := frame_rightHanded h.reference (h.window n hn) hf
        obtain ⟨M, hM, -⟩ := Analysis.C57_shape h.nmax h.kmax h.rule hr
        refine ⟨M, fun _ => ⟨⟨b, hf, hr, hM⟩, ?_⟩⟩
        unfold matrixAt
        simp only [hM, ofAnalysis]
    · exact ⟨[], fun hc => absurd hc hn⟩
  choose R hR using hex
  refine ⟨R, fun n hn => (hR n hn).1, ?_⟩
  rw [Synth.mapM_ok, List.forall₂_map_left_iff, List.forall₂_map_right_iff, List.forall₂_same]
  intro n hn
  exact (hR n (List.mem_range.1 hn)).2

/-- Weight of a component: those of positive frequency count twice. -/
noncomputable def weight (written : Bool) (read : Scaled) (k : ℕ) : ℝ := if k = 0 then 1 else (if written then 2 else 1) * (if read.isFalse then 2 else 1)

/-- Complex harmonic number `k` at the time `t`. -/
noncomputable def wave (N : ℕ) (step : ℝ) (k : ℕ) (t : ℝ) : ℂ :=
  ⟨Real.cos (2 * Real.pi * k * (24 * t / step) / N), Real.sin (2 * Real.pi * k * (24 * t / step) / N)⟩

theorem components_synth (h : Good leggauss argsort config conductivity a) (response : ℕ → ℂ) (x : ℕ → ℝ) (read : Scaled) (t : ℝ) :
    (∑ q ∈ Finset.range (halfLen a.samples), ((components argsort a response x).getD q (0, 0)).2 * harmonic read ((components argsort a response x).getD q (0, 0)).1 t).re =
      ∑ k ∈ Finset.range (halfLen a.samples), weight (a.scaled.getD false) read k * (response k * dft a.samples x k * wave a.samples a.stepSize k t).re := by
  have hs := h.sort fun k => response k * dft a.samples x k
  set sort := argsort (halfLen a.samples) fun k => response k * dft a.samples x k with hsort
  have hlen : sort.length = halfLen a.samples := by rw [hs.1.length_eq, List.length_range]
  have hc : components argsort a response x = sort.map fun k =>
      (frequencyFull a.samples a.stepSize k * (24 * 3600), if a.scaled.getD false then
        (if frequencyFull a.samples a.stepSize k * (24 * 3600) = 0 then response k * dft a.samples x k else 2 * (response k * dft a.samples x k)) else response k * dft a.samples x k) := by
    unfold components elementFft
    rw [h.filter]
    simp only [Option.getD_none]
    rw [if_neg (by omega), ← hsort, List.take_of_length_le hlen.le]
  have hl : (components argsort a response x).length = halfLen a.samples := by rw [hc, List.length_map, hlen]
  have := synthElement_sum (components argsort a response x) read t
  unfold synthElement synthRotate at this
  rw [hl] at this
  rw [this, hc, List.map_map]
  have e : ((fun p : ℝ × ℂ => p.2 * harmonic read p.1 t) ∘ fun k =>
      (frequencyFull a.samples a.stepSize k * (24 * 3600), if a.scaled.getD false then
        (if frequencyFull a.samples a.stepSize k * (24 * 3600) = 0 then response k * dft a.samples x k else 2 * (response k * dft a.samples x k)) else response k * dft a.samples x k)) =
      fun k => (weight (a.scaled.getD false) read k : ℂ) * (response k * dft a.samples x k * wave a.samples a.stepSize k t) := by
    funext k
    have he := entry a.samples h.samples a.stepSize h.step (a.scaled.getD false) read (response k * dft a.samples x k) k t
    simp only at he
    simp only [Function.comp_apply]
    rw [he]
    unfold weight wave
    congr 1
    split_ifs <;> norm_num
  rw [e, perm_sum (halfLen a.samples) sort hs.1, Complex.re_sum]
  apply Finset.sum_congr rfl
  intro k _
  simp [Complex.mul_re]

/-- Series of one matrix element. -/
def series (R : ℕ → List (List ℝ)) (i l n : ℕ) : ℝ := ((R n).getD l []).getD i 0

theorem dft_congr (N : ℕ) (x y : ℕ → ℝ) (h : ∀ n < N, x n = y n) (k : ℕ) : dft N x k = dft N y k := by
  unfold dft
  congr 1
  apply Finset.sum_congr rfl
  intro n hn
  rw [h n (Finset.mem_range.1 hn)]

/-- The file in terms of the matrices and responses. -/
theorem fft_ok (h : Good leggauss argsort config conductivity a) : ∃ f R q, rotateGaussFft leggauss argsort config conductivity a = .ok f ∧
    (∀ n < a.samples, IsMatrix leggauss config a n (R n)) ∧ responses conductivity a = .ok q ∧
    f.dipole = config ∧ f.rows = a.nmax * (a.nmax + 2) ∧ f.cols = a.kmax * (a.kmax + 2) ∧ f.scaled = a.scaled.getD false ∧
    (∀ read t i l, synthRotate f.k f.frequency f.spectrum read t i l =
      ∑ k ∈ Finset.range (halfLen a.samples), weight (a.scaled.getD false) read k * (1 * dft a.samples (series R i l) k * wave a.samples a.stepSize k t).re) ∧
    (∀ read t i l, synthRotate f.kInd f.frequencyInd f.spectrumInd read t i l =
      ∑ k ∈ Finset.range (halfLen a.samples), weight (a.scaled.getD false) read k * (q i k * dft a.samples (series R i l) k * wave a.samples a.stepSize k t).re) := by
  obtain ⟨R, hR, hm⟩ := matrices_ok h
  have hq : ∃ q, responses conductivity a = .ok q := by
    unfold responses
    cases hf : a.qfunc with
    | some q => exact ⟨_, rfl⟩
    | none =>
      obtain ⟨table, ht, -⟩ := QResponse.C46_table conductivity (h.response hf) ((List.range (halfLen a.samples)).map (frequencyFull a.samples a.stepSize)) a.nmax
      simp only [ht, ofQ]
      exact ⟨_, rfl⟩
  obtain ⟨q, hq⟩ := hq
  have hx : ∀ i l, ∀ k, dft a.samples (fun n => ((((List.range a.samples).map R).getD n []).getD l []).getD i 0) k = dft a.samples (series R i l) k := by
    intro i l k
    apply dft_congr
    intro n hn
    unfold series
    have : ((List.range a.samples).map R).getD n [] = R n := by
      rw [List.getD_eq_getElem?_getD, List.getElem?_map, List.getElem?_range hn]
      rfl
    rw [this]
  have hfull : ∀ {α : Type} (y : Except Error α), (if a.filter.getD (halfLen a.samples) > halfLen a.samples then (Except.error Error.valueError : Except Error α) else y) = y := by
    intro α y
    rw [h.filter]
    simp
  refine ⟨_, R, q, by
    unfold rotateGaussFft
    simp only [bases_ok h, hm, hq, bind, Except.bind, pure, Except.pure, throw, throwThe, MonadExceptOf.throw, h.filter, Option.getD_none, gt_iff_lt, lt_self_iff_false, if_false]
    rfl, hR, hq, rfl, rfl, rfl, rfl, ?_, ?_⟩
  · intro read t i l
    unfold synthRotate
    have := components_synth h (fun _ => 1) (fun n => ((((List.range a.samples).map R).getD n []).getD l []).getD i 0) read t
    simp only [hx] at this
    exact this
  · intro read t i l
    unfold synthRotate
    have := components_synth h (q i) (fun n => ((((List.range a.samples).map R).getD n []).getD l []).getD i 0) read t
    simp only [hx] at this
    exact this

theorem comp_eq (h : Good leggauss argsort config conductivity a) (x : ℕ → ℝ) (j k : ℕ) :
    (1 * dft a.samples x k * wave a.samples a.stepSize k (sampleTime a.stepSize 0 j)).re = comp a.samples x j k := by
  have hs := h.step
  have hr := dft_mul_re a.samples x k j
  unfold comp
  rw [← hr, one_mul]
  unfold wave sampleTime
  rw [add_zero, show 24 * ((j : ℝ) * a.stepSize / 24) / a.stepSize = j by field_simp]

/-- **C63** (sampling). For all arguments (reference system GSM or SM, degrees, step, number of samples) the function succeeds, and the
matrices synthesised from its output at the sampling times (from time zero) are the rotation matrices of the reference system at those
times, if the number of samples is odd; if it is even, as the default, the component at the Nyquist frequency is counted twice. -/
theorem C63_sampling (h : Good leggauss argsort config conductivity a) (h0 : a.start.getD 0 = 0) :
    ∃ f R, rotateGaussFft leggauss argsort config conductivity a = .ok f ∧ f.dipole = config ∧ f.rows = a.nmax * (a.nmax + 2) ∧
      f.cols = a.kmax * (a.kmax + 2) ∧ (∀ n < a.samples, IsMatrix leggauss config a n (R n)) ∧
      ∀ read, Matching (a.scaled.getD false) read → ∀ j < a.samples, ∀ i l,
        synthRotate f.k f.frequency f.spectrum read (a.time j) i l = series R i l j +
          (if a.samples % 2 = 0 then (-1) ^ j * alternating a.samples (series R i l) else 0) := by
  obtain ⟨f, R, q, hf, hR, -, h1, h2, h3, -, hE, -⟩ := fft_ok h
  refine ⟨f, R, hf, h1, h2, h3, hR, fun read hm j hj i l => ?_⟩
  rw [hE, Args.time, h0]
  obtain ⟨comps, c1, c2⟩ := C44_sampling a.samples h.samples a.stepSize h.step (a.scaled.getD false) read hm (series R i l) _ (h.sort _)
  obtain ⟨comps', c1', c2'⟩ := synth_full a.samples h.samples a.stepSize h.step (a.scaled.getD false) read (series R i l) _ (h.sort _)
  rw [c1] at c1'
  cases c1'
  rw [← c2 j hj]
  have := c2' j
  unfold sampleTime at *
  rw [add_zero] at *
  rw [this]
  apply Finset.sum_congr rfl
  intro k _
  have hc := comp_eq h (series R i l) j k
  unfold sampleTime at hc
  rw [add_zero] at hc
  rw [hc]
  rfl

end ChaosMagPy.RotateFft
