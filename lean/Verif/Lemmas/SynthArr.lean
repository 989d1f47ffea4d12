import Verif.Model.SynthArr
import Verif.Lemmas.NumPy
import Verif.Lemmas.SynthCall
import Verif.Props.Legendre
/-! The vectorised loops do at every index what the loops for one point do. -/
namespace ChaosMagPy.SynthArr
open ChaosMagPy.NumPy
open ChaosMagPy.Legendre (pyRange)
open ChaosMagPy.Synth (Error Source)

/-- Data of the loops for one index. -/
noncomputable def ctxAt (x : Ctx) (lead : List ℕ) (d : ℕ) (i : List ℕ) : Synth.Ctx :=
  { dim := d, src := x.src, poles := x.poles, T := fun p => (x.P p).at i, radius := x.radius.at i, theta := x.theta.at i, phi := x.phi.at i,
    c := fun k => x.coeffs.get (proj lead i ++ [k]) }

/-- Running variables for one index. -/
noncomputable def stateAt (S : State) (i : List ℕ) : Synth.State :=
  { num := S.num, rn := S.rn.at i, br := S.br.get i, bt := S.bt.get i, bp := S.bp.get i }

/-- The shapes fit. -/
structure WF (G : List ℕ) (S : State) : Prop where
  rn : Into S.rn.shape G
  br : S.br.shape = G
  bt : S.bt.shape = G
  bp : S.bp.shape = G

/-- The shapes of the inputs fit. -/
structure Fits (G lead : List ℕ) (d : ℕ) (x : Ctx) : Prop where
  radius : Into x.radius.shape G
  theta : Into x.theta.shape G
  phi : Into x.phi.shape G
  coeffs : x.coeffs.shape = lead ++ [d]
  lead : Into lead G
  P : ∀ p, (x.P p).shape = x.theta.shape

/-- The vectorised computation does the same as the computations for the single indices. -/
def Sim (G : List ℕ) (X : Except Error State) (Y : List ℕ → Except Error Synth.State) : Prop :=
  (∃ S, X = .ok S ∧ WF G S ∧ ∀ i, Y i = .ok (stateAt S i)) ∨ (X = .error .indexError ∧ ∀ i, Y i = .error .indexError)

theorem foldlM_sim (G : List ℕ) (F : State → ℕ → Except Error State) (f : List ℕ → Synth.State → ℕ → Except Error Synth.State)
    (h : ∀ S n, WF G S → Sim G (F S n) fun i => f i (stateAt S i) n) (l : List ℕ) (S : State) (hS : WF G S) :
    Sim G (l.foldlM F S) fun i => l.foldlM (f i) (stateAt S i) := by
  induction l generalizing S with
  | nil => exact Or.inl ⟨S, rfl, hS, fun i => rfl⟩
  | cons n l ih =>
    simp only [List.foldlM_cons, bind, Except.bind]
    rcases h S n hS with ⟨S', h1, h2, h3⟩ | ⟨h1, h2⟩
    · rw [h1]
      simp only [h3]
      exact ih S' h2
    · rw [h1]
      simp only [h2]
      exact Or.inr ⟨rfl, fun _ => rfl⟩

theorem divArr_shape (poles : Bool) (theta : Arr ℝ) (P : ℕ × ℕ → Arr ℝ) (n m : ℕ) : (divArr poles theta P n m).shape = theta.shape := by
  unfold divArr
  cases poles <;> rfl

theorem divArr_at (poles : Bool) (theta : Arr ℝ) (P : ℕ × ℕ → Arr ℝ) (hP : ∀ p, (P p).shape = theta.shape) (n m : ℕ) (i : List ℕ) :
    (divArr poles theta P n m).at i = Synth.divP poles (fun p => (P p).at i) (theta.at i) n m := by
  unfold Arr.at
  rw [divArr_shape]
  simp only [hP]
  generalize proj theta.shape i = j
  unfold divArr Synth.divP
  cases poles with
  | false => simp
  | true =>
    simp only [if_true, true_and]
    unfold masked whereArr wherePoles Arr.map
    by_cases h : theta.get j = 0 ∨ theta.get j = 180
    · simp [h]
    · simp [h]

variable {G lead : List ℕ} {d : ℕ} {x : Ctx}

theorem err_left (f : ℝ → ℝ → ℝ) {x y : AE} {e : Error} (h : x.run = .error e) : lift2 f x.run y.run = .error e := by
  rw [h]; rfl

theorem err_right (f : ℝ → ℝ → ℝ) {x y : AE} {e : Error} {u : List ℕ → ℝ} (hx : Reps G x u) (h : y.run = .error e) : lift2 f x.run y.run = .error e := by
  obtain ⟨a, ha, _⟩ := hx
  rw [h, ha]; rfl

theorem mul_err_left {x y : AE} {e : Error} (h : x.run = .error e) : (x * y).run = .error e := err_left _ h
theorem mul_err_right {x y : AE} {e : Error} {u : List ℕ → ℝ} (hx : Reps G x u) (h : y.run = .error e) : (x * y).run = .error e := err_right _ hx h
theorem add_err_left {x y : AE} {e : Error} (h : x.run = .error e) : (x + y).run = .error e := err_left _ h
theorem add_err_right {x y : AE} {e : Error} {u : List ℕ → ℝ} (hx : Reps G x u) (h : y.run = .error e) : (x + y).run = .error e := err_right _ hx h
theorem neg_err {x : AE} {e : Error} (h : x.run = .error e) : (-x).run = .error e := by
  show (match x.run with | .ok a => Except.ok (a.map fun v => -v) | .error e => .error e) = _
  rw [h]

theorem orderStep_sim (hx : Fits G lead d x) (n : ℕ) (S : State) (hS : WF G S) (m : ℕ) :
    Sim G (orderStep x n S m) fun i => Synth.orderStep (ctxAt x lead d i) n (stateAt S i) m := by
  have hP : ∀ p, Reps G (x.P p).e fun i => (x.P p).at i := fun p => Reps.arr _ (by rw [hx.P]; exact hx.theta)
  have hrn := Reps.arr S.rn hS.rn
  have hc : Reps G (x.phi.map fun y => Real.cos (m * y)).e fun i => Real.cos (m * x.phi.at i) := ⟨_, rfl, hx.phi, fun i => rfl⟩
  have hs : Reps G (x.phi.map fun y => Real.sin (m * y)).e fun i => Real.sin (m * x.phi.at i) := ⟨_, rfl, hx.phi, fun i => rfl⟩
  have hdiv : Reps G (divArr x.poles x.theta x.P n m).e fun i => Synth.divP x.poles (fun p => (x.P p).at i) (x.theta.at i) n m :=
    ⟨_, rfl, by rw [divArr_shape]; exact hx.theta, fun i => divArr_at _ _ _ hx.P n m i⟩
  by_cases h1 : S.num + 1 < d
  · have h0 : S.num < d := by omega
    have hg := sel_reps x.coeffs d S.num hx.coeffs hx.lead h0
    have hh := sel_reps x.coeffs d (S.num + 1) hx.coeffs hx.lead h1
    have hsum := (hg.mul hc).add (hh.mul hs)
    have hdif := (hg.mul hs).sub (hh.mul hc)
    obtain ⟨bt, t1, t2, t3⟩ := iadd_reps S.bt hS.bt (((hP (m, n + 1)).neg.mul hrn).mul hsum)
    obtain ⟨bp, p1, p2, p3⟩ := iadd_reps S.bp hS.bp ((((Reps.num (m : ℝ)).mul hdiv).mul hrn).mul hdif)
    left
    have key : ∃ br : Arr ℝ, br.shape = G ∧ (∀ i, br.get i = S.br.get i + Synth.rfac x.src n * (x.P (n, m)).at i * S.rn.at i *
        (x.coeffs.get (proj lead i ++ [S.num]) * Real.cos (m * x.phi.at i) + x.coeffs.get (proj lead i ++ [S.num + 1]) * Real.sin (m * x.phi.at i))) ∧
        orderStep x n S m = .ok { num := S.num + 2, rn := S.rn, br, bt, bp } := by
      unfold orderStep
      cases hsrc : x.src with
      | internal =>
        obtain ⟨br, r1, r2, r3⟩ := iadd_reps S.br hS.br ((((Reps.num ((n : ℝ) + 1)).mul (hP (n, m))).mul hrn).mul hsum)
        refine ⟨br, r2, fun i => by rw [r3]; rfl, ?_⟩
        simp only [bind, Except.bind, pure, Except.pure, r1, t1, p1]
      | external =>
        obtain ⟨br, r1, r2, r3⟩ := iadd_reps S.br hS.br (((((Reps.num (n : ℝ)).mul (hP (n, m))).mul hrn).mul hsum).neg)
        refine ⟨br, r2, fun i => by rw [r3]; simp only [Synth.rfac]; ring, ?_⟩
        simp only [bind, Except.bind, pure, Except.pure, r1, t1, p1]
    obtain ⟨br, r2, r3, r4⟩ := key
    refine ⟨_, r4, ⟨hS.rn, r2, t2, p2⟩, ?_⟩
    intro i
    have e0 : Synth.getCoef d (fun k => x.coeffs.get (proj lead i ++ [k])) S.num = .ok (x.coeffs.get (proj lead i ++ [S.num])) := if_pos h0
    have e1 : Synth.getCoef d (fun k => x.coeffs.get (proj lead i ++ [k])) (S.num + 1) = .ok (x.coeffs.get (proj lead i ++ [S.num + 1])) := if_pos h1
    unfold Synth.orderStep
    simp only [ctxAt, stateAt, e0, e1, bind, Except.bind, pure, Except.pure]
    rw [r3, t3, p3]
  · right
    have hsum : ((x.coeffs.sel S.num) * (x.phi.map fun y => Real.cos (m * y)).e + (x.coeffs.sel (S.num + 1)) * (x.phi.map fun y => Real.sin (m * y)).e).run
        = .error .indexError := by
      by_cases h0 : S.num < d
      · exact add_err_right ((sel_reps x.coeffs d S.num hx.coeffs hx.lead h0).mul hc) (mul_err_left (sel_error x.coeffs d _ hx.coeffs h1))
      · exact add_err_left (mul_err_left (sel_error x.coeffs d _ hx.coeffs h0))
    constructor
    · unfold orderStep
      cases hsrc : x.src with
      | internal =>
        simp only [bind, Except.bind, pure, Except.pure]
        rw [iadd_error S.br (mul_err_right (((Reps.num ((n : ℝ) + 1)).mul (hP (n, m))).mul hrn) hsum)]
      | external =>
        simp only [bind, Except.bind, pure, Except.pure]
        rw [iadd_error S.br (neg_err (mul_err_right (((Reps.num (n : ℝ)).mul (hP (n, m))).mul hrn) hsum))]
    · intro i
      have e1 : Synth.getCoef d (fun k => x.coeffs.get (proj lead i ++ [k])) (S.num + 1) = .error .indexError := if_neg h1
      unfold Synth.orderStep
      simp only [ctxAt, stateAt, e1, bind, Except.bind, pure, Except.pure]
      by_cases h0 : S.num < d
      · have e0 : Synth.getCoef d (fun k => x.coeffs.get (proj lead i ++ [k])) S.num = .ok (x.coeffs.get (proj lead i ++ [S.num])) := if_pos h0
        rw [e0]
      · have e0 : Synth.getCoef d (fun k => x.coeffs.get (proj lead i ++ [k])) S.num = .error .indexError := if_neg h0
        rw [e0]

theorem degreeStep_sim (hx : Fits G lead d x) (mmax : ℤ) (S : State) (hS : WF G S) (n : ℕ) :
    Sim G (degreeStep x mmax S n) fun i => Synth.degreeStep (ctxAt x lead d i) mmax (stateAt S i) n := by
  have hP : ∀ p, Reps G (x.P p).e fun i => (x.P p).at i := fun p => Reps.arr _ (by rw [hx.P]; exact hx.theta)
  have hrn := Reps.arr S.rn hS.rn
  by_cases h0 : S.num < d
  · have hg := sel_reps x.coeffs d S.num hx.coeffs hx.lead h0
    obtain ⟨bt, t1, t2, t3⟩ := iadd_reps S.bt hS.bt (((hP (0, n + 1)).neg.mul hrn).mul hg)
    have key : ∃ br : Arr ℝ, br.shape = G ∧ (∀ i, br.get i = S.br.get i + Synth.rfac x.src n * (x.P (n, 0)).at i * S.rn.at i *
        x.coeffs.get (proj lead i ++ [S.num])) ∧
        degreeStep x mmax S n = (do
          let s2 ← (pyRange 1 ((min (n : ℤ) mmax + 1).toNat)).foldlM (orderStep x n) { S with num := S.num + 1, br, bt }
          let rn ← rnNext x.src x.radius s2.rn
          return { s2 with rn }) := by
      unfold degreeStep
      cases hsrc : x.src with
      | internal =>
        obtain ⟨br, r1, r2, r3⟩ := iadd_reps S.br hS.br ((((Reps.num ((n : ℝ) + 1)).mul (hP (n, 0))).mul hrn).mul hg)
        refine ⟨br, r2, fun i => by rw [r3]; rfl, ?_⟩
        simp only [bind, Except.bind, pure, Except.pure, r1, t1]
      | external =>
        obtain ⟨br, r1, r2, r3⟩ := iadd_reps S.br hS.br ((((Reps.num (-(n : ℝ))).mul (hP (n, 0))).mul hrn).mul hg)
        refine ⟨br, r2, fun i => by rw [r3]; rfl, ?_⟩
        simp only [bind, Except.bind, pure, Except.pure, r1, t1]
    obtain ⟨br, r2, r3, r4⟩ := key
    rw [r4]
    have hsim := foldlM_sim G (orderStep x n) (fun i => Synth.orderStep (ctxAt x lead d i) n) (fun S m hS => orderStep_sim hx n S hS m)
      (pyRange 1 ((min (n : ℤ) mmax + 1).toNat)) { S with num := S.num + 1, br, bt } ⟨hS.rn, r2, t2, hS.bp⟩
    have hlow : ∀ i, Synth.degreeStep (ctxAt x lead d i) mmax (stateAt S i) n = (do
        let s2 ← (pyRange 1 ((min (n : ℤ) mmax + 1).toNat)).foldlM (Synth.orderStep (ctxAt x lead d i) n)
          (stateAt { S with num := S.num + 1, br, bt } i)
        return { s2 with rn := Synth.rnStep x.src (x.radius.at i) s2.rn }) := by
      intro i
      have e0 : Synth.getCoef d (fun k => x.coeffs.get (proj lead i ++ [k])) S.num = .ok (x.coeffs.get (proj lead i ++ [S.num])) := if_pos h0
      unfold Synth.degreeStep
      simp only [ctxAt, stateAt, e0, bind, Except.bind, pure, Except.pure]
      rw [r3, t3]
    rcases hsim with ⟨S', h1, h2, h3⟩ | ⟨h1, h2⟩
    · left
      have hq : ∃ rn, rnNext x.src x.radius S'.rn = .ok rn ∧ Into rn.shape G ∧ ∀ i, rn.at i = Synth.rnStep x.src (x.radius.at i) (S'.rn.at i) := by
        cases x.src with
        | internal =>
          obtain ⟨c, c1, c2, c3⟩ := (Reps.arr S'.rn h2.rn).div (Reps.arr x.radius hx.radius)
          exact ⟨c, c1, c2, c3⟩
        | external =>
          obtain ⟨c, c1, c2, c3⟩ := (Reps.arr S'.rn h2.rn).mul (Reps.arr x.radius hx.radius)
          exact ⟨c, c1, c2, c3⟩
      obtain ⟨rn, q1, q2, q3⟩ := hq
      refine ⟨{ S' with rn }, ?_, ⟨q2, h2.br, h2.bt, h2.bp⟩, ?_⟩
      · simp only [bind, Except.bind, pure, Except.pure, h1, q1]
      · intro i
        beta_reduce
        rw [hlow i]
        simp only at h3
        simp only [bind, Except.bind, pure, Except.pure, h3 i]
        unfold stateAt
        simp only [q3]
    · right
      constructor
      · simp only [bind, Except.bind, h1]
      · intro i
        beta_reduce
        rw [hlow i]
        simp only at h2
        simp only [bind, Except.bind, h2 i]
  · right
    have hg := sel_error x.coeffs d S.num hx.coeffs h0
    constructor
    · unfold degreeStep
      cases hsrc : x.src with
      | internal =>
        simp only [bind, Except.bind, pure, Except.pure]
        rw [iadd_error S.br (mul_err_right (((Reps.num ((n : ℝ) + 1)).mul (hP (n, 0))).mul hrn) hg)]
      | external =>
        simp only [bind, Except.bind, pure, Except.pure]
        rw [iadd_error S.br (mul_err_right (((Reps.num (-(n : ℝ))).mul (hP (n, 0))).mul hrn) hg)]
    · intro i
      have e0 : Synth.getCoef d (fun k => x.coeffs.get (proj lead i ++ [k])) S.num = .error .indexError := if_neg h0
      unfold Synth.degreeStep
      simp only [ctxAt, stateAt, e0, bind, Except.bind]

/-- The point that belongs to an index of the result. -/
noncomputable def pointAt (coeffs radius theta phi : Arr ℝ) (i : List ℕ) : Synth.Point :=
  ⟨radius.at i, theta.at i, phi.at i, fun k => coeffs.get (proj coeffs.shape.dropLast i ++ [k])⟩

theorem legendre_exists (nmax : ℕ) (hn : 1 ≤ nmax) (t : ℝ) : ∃ T, Legendre.legendrePoly nmax t = .ok T := by
  exact ⟨_, Legendre.legendrePoly_ok nmax t hn⟩

/-- The loops of the vectorised function. -/
theorem loops_sim (rsurf : ℝ) (coeffs radius theta phi : Arr ℝ) (src : Source) (poles : Bool) (nmin nmax : ℕ) (hn : 1 ≤ nmax) (mmax : ℤ)
    (hc : coeffs.shape = lead ++ [d]) (h1 : Into radius.shape G) (h2 : Into theta.shape G) (h3 : Into phi.shape G) (h4 : Into lead G) :
    (∃ B, loops coeffs (radius.map fun r => r / rsurf) theta phi src poles nmin nmax mmax G = .ok B ∧ B.1.shape = G ∧ B.2.1.shape = G ∧ B.2.2.shape = G ∧
      ∀ i, Synth.synthPoint rsurf src poles d nmin nmax mmax (pointAt coeffs radius theta phi i) = .ok (B.1.get i, B.2.1.get i, B.2.2.get i)) ∨
    (loops coeffs (radius.map fun r => r / rsurf) theta phi src poles nmin nmax mmax G = .error .indexError ∧
      ∀ i, Synth.synthPoint rsurf src poles d nmin nmax mmax (pointAt coeffs radius theta phi i) = .error .indexError) := by
  set x : Ctx := { src, poles, P := legendreArr nmax theta, radius := radius.map fun r => r / rsurf, theta, phi := phi.map Spec.rad, coeffs } with hx
  have hfit : Fits G lead d x := ⟨h1, h2, h3, hc, h4, fun _ => rfl⟩
  have hsim := foldlM_sim G (degreeStep x mmax) (fun i => Synth.degreeStep (ctxAt x lead d i) mmax) (fun S n hS => degreeStep_sim hfit mmax S hS n)
    (pyRange nmin (nmax + 1)) { num := 0, rn := (radius.map fun r => r / rsurf).map fun r => Synth.rnInit src r nmin, br := zeros G, bt := zeros G, bp := zeros G }
    ⟨h1, rfl, rfl, rfl⟩
  have hlow : ∀ i, Synth.synthPoint rsurf src poles d nmin nmax mmax (pointAt coeffs radius theta phi i) = (do
      let s ← (pyRange nmin (nmax + 1)).foldlM (Synth.degreeStep (ctxAt x lead d i) mmax)
        (stateAt { num := 0, rn := (radius.map fun r => r / rsurf).map fun r => Synth.rnInit src r nmin, br := zeros G, bt := zeros G, bp := zeros G } i)
      return (s.br, s.bt, s.bp)) := by
    intro i
    unfold Synth.synthPoint
    obtain ⟨T, hT⟩ := legendre_exists nmax hn (theta.at i)
    have hTi : (fun p => (x.P p).at i) = T := by
      funext p
      show (match Legendre.legendrePoly nmax (theta.at i) with | .ok T => T p | .error _ => 0) = T p
      rw [hT]
    simp only [pointAt, hT]
    unfold ctxAt
    rw [hTi, hc, List.dropLast_concat]
    rfl
  unfold loops
  rw [← hx]
  rcases hsim with ⟨S, g1, g2, g3⟩ | ⟨g1, g2⟩
  · left
    refine ⟨(S.br, S.bt, S.bp), ?_, g2.br, g2.bt, g2.bp, ?_⟩
    · simp only [bind, Except.bind, pure, Except.pure, g1]
    · intro i
      simp only at g3
      rw [hlow i]
      simp only [bind, Except.bind, pure, Except.pure, g3 i]
      rfl
  · right
    constructor
    · simp only [bind, Except.bind, g1]
    · intro i
      simp only at g2
      rw [hlow i]
      simp only [bind, Except.bind, g2 i]

end ChaosMagPy.SynthArr
