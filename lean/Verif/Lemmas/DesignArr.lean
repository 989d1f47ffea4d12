import Verif.Model.DesignArr
import Verif.Lemmas.SynthArr
/-! The vectorised loops of `design_gauss` do at every index what the loops for one point do. -/
namespace ChaosMagPy.DesignArr
open ChaosMagPy.NumPy
open ChaosMagPy.Legendre (pyRange)
open ChaosMagPy.Synth (Error Source)
open ChaosMagPy.SynthArr (Ctx legendreArr divArr rnNext divArr_shape divArr_at legendre_exists)

theorem setSel_reps {G : List ℕ} {dim : ℕ} (A : Arr ℝ) (hA : A.shape = G ++ [dim]) (k : ℕ) {x : AE} {u : List ℕ → ℝ} (hx : Reps G x u) :
    (k < dim ∧ ∃ A', setSel A k x = .ok A' ∧ A'.shape = G ++ [dim] ∧ ∀ i j, A'.get (i ++ [j]) = if j = k then u i else A.get (i ++ [j])) ∨
    (¬ k < dim ∧ setSel A k x = .error .indexError) := by
  obtain ⟨a, h1, h2, h3⟩ := hx
  unfold setSel
  rw [h1, hA]
  simp only [List.getLast?_append, List.getLast?_singleton, Option.some_or, List.dropLast_concat]
  by_cases hk : k < dim
  · left
    refine ⟨hk, _, by rw [if_pos hk, if_pos (bcast_self h2)], rfl, fun i j => ?_⟩
    simp only [List.getLastD_concat, List.dropLast_concat, h3]
  · right
    exact ⟨hk, by rw [if_neg hk]⟩

/-- Data of the loops for one index. -/
noncomputable def ctxAt (x : Ctx) (dim : ℕ) (i : List ℕ) : Synth.Ctx :=
  { dim := dim, src := x.src, poles := x.poles, T := fun p => (x.P p).at i, radius := x.radius.at i, theta := x.theta.at i, phi := x.phi.at i, c := fun _ => 0 }

/-- Running variables for one index. -/
noncomputable def rowsAt (S : State) (i : List ℕ) : Synth.Rows :=
  { num := S.num, rn := S.rn.at i, ar := fun j => S.ar.get (i ++ [j]), ath := fun j => S.ath.get (i ++ [j]), ap := fun j => S.ap.get (i ++ [j]) }

/-- The shapes fit. -/
structure WF (G : List ℕ) (dim : ℕ) (S : State) : Prop where
  rn : Into S.rn.shape G
  ar : S.ar.shape = G ++ [dim]
  ath : S.ath.shape = G ++ [dim]
  ap : S.ap.shape = G ++ [dim]

/-- The shapes of the inputs fit. -/
structure Fits (G : List ℕ) (x : Ctx) : Prop where
  radius : Into x.radius.shape G
  theta : Into x.theta.shape G
  phi : Into x.phi.shape G
  P : ∀ p, (x.P p).shape = x.theta.shape

/-- The vectorised computation does the same as the computations for the single indices. -/
def Sim (G : List ℕ) (dim : ℕ) (X : Except Error State) (Y : List ℕ → Except Error Synth.Rows) : Prop :=
  (∃ S, X = .ok S ∧ WF G dim S ∧ ∀ i, Y i = .ok (rowsAt S i)) ∨ (X = .error .indexError ∧ ∀ i, Y i = .error .indexError)

theorem foldlM_sim (G : List ℕ) (dim : ℕ) (F : State → ℕ → Except Error State) (f : List ℕ → Synth.Rows → ℕ → Except Error Synth.Rows)
    (h : ∀ S n, WF G dim S → Sim G dim (F S n) fun i => f i (rowsAt S i) n) (l : List ℕ) (S : State) (hS : WF G dim S) :
    Sim G dim (l.foldlM F S) fun i => l.foldlM (f i) (rowsAt S i) := by
  induction l generalizing S with
  | nil => exact Or.inl ⟨S, rfl, hS, fun i => rfl⟩
  | cons n l ih =>
    simp only [List.foldlM_cons, bind, Except.bind]
    rcases h S n hS with ⟨S', h1, h2, h3⟩ | ⟨h1, h2⟩
    · rw [h1]
      simp only [h3]
      exact ih S' h2
    · rw [h1]
      simp only [h2]
      exact Or.inr ⟨rfl, fun _ => rfl⟩

variable {G : List ℕ} {dim : ℕ} {x : Ctx}

theorem rnum_reps (src : Source) (n : ℕ) : Reps G (rnum src n) fun _ => Synth.rfac src n := by
  cases src with
  | internal => exact Reps.num ((n : ℝ) + 1)
  | external => exact Reps.num (-(n : ℝ))

/-- One assignment in both versions. -/
theorem set_sim (A : Arr ℝ) (hA : A.shape = G ++ [dim]) (k : ℕ) {e : AE} {u : List ℕ → ℝ} (hx : Reps G e u) :
    (∃ A', setSel A k e = .ok A' ∧ A'.shape = G ++ [dim] ∧
      ∀ i, Synth.setCol dim (fun j => A.get (i ++ [j])) k (u i) = .ok fun j => A'.get (i ++ [j])) ∨
    (setSel A k e = .error .indexError ∧ ∀ i, Synth.setCol dim (fun j => A.get (i ++ [j])) k (u i) = .error .indexError) := by
  rcases setSel_reps A hA k hx with ⟨hk, A', h1, h2, h3⟩ | ⟨hk, h1⟩
  · left
    refine ⟨A', h1, h2, fun i => ?_⟩
    unfold Synth.setCol
    rw [if_pos hk]
    congr 1
    funext j
    rw [h3]
  · right
    exact ⟨h1, fun i => if_neg hk⟩

theorem orderStep_sim (hx : Fits G x) (n : ℕ) (S : State) (hS : WF G dim S) (m : ℕ) :
    Sim G dim (orderStep x n S m) fun i => Synth.designOrder (ctxAt x dim i) n (rowsAt S i) m := by
  have hP : ∀ p, Reps G (x.P p).e fun i => (x.P p).at i := fun p => Reps.arr _ (by rw [hx.P]; exact hx.theta)
  have hrn := Reps.arr S.rn hS.rn
  have hc : Reps G (x.phi.map fun y => Real.cos (m * y)).e fun i => Real.cos (m * x.phi.at i) := ⟨_, rfl, hx.phi, fun i => rfl⟩
  have hs : Reps G (x.phi.map fun y => Real.sin (m * y)).e fun i => Real.sin (m * x.phi.at i) := ⟨_, rfl, hx.phi, fun i => rfl⟩
  have hdiv : Reps G (divArr x.poles x.theta x.P n m).e fun i => Synth.divP x.poles (fun p => (x.P p).at i) (x.theta.at i) n m :=
    ⟨_, rfl, by rw [divArr_shape]; exact hx.theta, fun i => divArr_at _ _ _ hx.P n m i⟩
  have hf := rnum_reps (G := G) x.src n
  unfold orderStep Synth.designOrder
  simp only [ctxAt, rowsAt, bind, Except.bind, pure, Except.pure]
  rcases set_sim S.ar hS.ar S.num (((hf.mul (hP (n, m))).mul hrn).mul hc) with ⟨A1, a1, a2, a3⟩ | ⟨a1, a3⟩
  swap
  · right; simp only [a1, a3, implies_true, and_self]
  simp only [a1, a3]
  rcases set_sim A1 a2 (S.num + 1) (((hf.mul (hP (n, m))).mul hrn).mul hs) with ⟨A2, b1, b2, b3⟩ | ⟨b1, b3⟩
  swap
  · right; simp only [b1, b3, implies_true, and_self]
  simp only [b1, b3]
  rcases set_sim S.ath hS.ath S.num (((hP (m, n + 1)).neg.mul hrn).mul hc) with ⟨A3, c1, c2, c3⟩ | ⟨c1, c3⟩
  swap
  · right; simp only [c1, c3, implies_true, and_self]
  simp only [c1, c3]
  rcases set_sim A3 c2 (S.num + 1) (((hP (m, n + 1)).neg.mul hrn).mul hs) with ⟨A4, d1, d2, d3⟩ | ⟨d1, d3⟩
  swap
  · right; simp only [d1, d3, implies_true, and_self]
  simp only [d1, d3]
  rcases set_sim S.ap hS.ap S.num ((((Reps.num (m : ℝ)).mul hdiv).mul hrn).mul hs) with ⟨A5, e1, e2, e3⟩ | ⟨e1, e3⟩
  swap
  · right; simp only [e1, e3, implies_true, and_self]
  simp only [e1, e3]
  rcases set_sim A5 e2 (S.num + 1) ((((Reps.num (-(m : ℝ))).mul hdiv).mul hrn).mul hc) with ⟨A6, f1, f2, f3⟩ | ⟨f1, f3⟩
  swap
  · right; simp only [f1, f3, implies_true, and_self]
  simp only [f1, f3]
  left
  exact ⟨_, rfl, ⟨hS.rn, b2, d2, f2⟩, fun i => rfl⟩

theorem degreeStep_sim (hx : Fits G x) (mmax : ℤ) (S : State) (hS : WF G dim S) (n : ℕ) :
    Sim G dim (degreeStep x mmax S n) fun i => Synth.designDegree (ctxAt x dim i) mmax (rowsAt S i) n := by
  have hP : ∀ p, Reps G (x.P p).e fun i => (x.P p).at i := fun p => Reps.arr _ (by rw [hx.P]; exact hx.theta)
  have hrn := Reps.arr S.rn hS.rn
  have hf := rnum_reps (G := G) x.src n
  rcases set_sim S.ar hS.ar S.num ((hf.mul (hP (n, 0))).mul hrn) with ⟨A1, a1, a2, a3⟩ | ⟨a1, a3⟩
  swap
  · right
    constructor
    · unfold degreeStep
      simp only [bind, Except.bind, a1]
    · intro i
      have := a3 i
      unfold Synth.designDegree
      simp only [ctxAt, rowsAt, bind, Except.bind, this]
  rcases set_sim S.ath hS.ath S.num ((hP (0, n + 1)).neg.mul hrn) with ⟨A2, b1, b2, b3⟩ | ⟨b1, b3⟩
  swap
  · right
    constructor
    · unfold degreeStep
      simp only [bind, Except.bind, a1, b1]
    · intro i
      unfold Synth.designDegree
      simp only [ctxAt, rowsAt, bind, Except.bind, a3 i, b3 i]
  have hsim := foldlM_sim G dim (orderStep x n) (fun i => Synth.designOrder (ctxAt x dim i) n) (fun S m hS => orderStep_sim hx n S hS m)
    (pyRange 1 ((min (n : ℤ) mmax + 1).toNat)) { S with num := S.num + 1, ar := A1, ath := A2 } ⟨hS.rn, a2, b2, hS.ap⟩
  have hhigh : degreeStep x mmax S n = (do
      let s2 ← (pyRange 1 ((min (n : ℤ) mmax + 1).toNat)).foldlM (orderStep x n) { S with num := S.num + 1, ar := A1, ath := A2 }
      let rn ← rnNext x.src x.radius s2.rn
      return { s2 with rn }) := by
    unfold degreeStep
    simp only [bind, Except.bind, a1, b1]
  have hlow : ∀ i, Synth.designDegree (ctxAt x dim i) mmax (rowsAt S i) n = (do
      let s2 ← (pyRange 1 ((min (n : ℤ) mmax + 1).toNat)).foldlM (Synth.designOrder (ctxAt x dim i) n)
        (rowsAt { S with num := S.num + 1, ar := A1, ath := A2 } i)
      return { s2 with rn := Synth.rnStep x.src (x.radius.at i) s2.rn }) := by
    intro i
    unfold Synth.designDegree
    simp only [ctxAt, rowsAt, bind, Except.bind, a3 i, b3 i]
  rw [hhigh]
  rcases hsim with ⟨S', h1, h2, h3⟩ | ⟨h1, h2⟩
  · left
    have hq : ∃ rn, rnNext x.src x.radius S'.rn = .ok rn ∧ Into rn.shape G ∧ ∀ i, rn.at i = Synth.rnStep x.src (x.radius.at i) (S'.rn.at i) := by
      cases x.src with
      | internal =>
        obtain ⟨c, c1, c2, c3⟩ := (Reps.arr S'.rn h2.rn).div (Reps.arr x.radius hx.radius)
        exact ⟨c, c1, c2, c3⟩
      | external =>
        obtain ⟨c, c1, c2, c3⟩ := (Reps.arr S'.rn h2.rn).mul (Reps.arr x.radius hx.radius)
        exact ⟨c, c1, c2, c3⟩
    obtain ⟨rn, q1, q2, q3⟩ := hq
    refine ⟨{ S' with rn }, ?_, ⟨q2, h2.ar, h2.ath, h2.ap⟩, ?_⟩
    · simp only [bind, Except.bind, pure, Except.pure, h1, q1]
    · intro i
      beta_reduce
      rw [hlow i]
      simp only at h3
      simp only [bind, Except.bind, pure, Except.pure, h3 i]
      unfold rowsAt
      simp only [q3]
  · right
    constructor
    · simp only [bind, Except.bind, h1]
    · intro i
      beta_reduce
      rw [hlow i]
      simp only at h2
      simp only [bind, Except.bind, h2 i]

/-- The loops of the vectorised function. -/
theorem loops_sim (rsurf : ℝ) (radius theta phi : Arr ℝ) (src : Source) (poles : Bool) (nmin nmax : ℕ) (hn : 1 ≤ nmax) (mmax : ℤ)
    (h1 : Into radius.shape G) (h2 : Into theta.shape G) (h3 : Into phi.shape G) :
    (∃ A, loops (radius.map fun r => r / rsurf) theta phi src poles nmin nmax mmax G dim = .ok A ∧ A.1.shape = G ++ [dim] ∧ A.2.1.shape = G ++ [dim] ∧
      A.2.2.shape = G ++ [dim] ∧
      ∀ i, Synth.designPoint rsurf src poles dim nmin nmax mmax (radius.at i) (theta.at i) (phi.at i) =
        .ok (fun j => A.1.get (i ++ [j]), fun j => A.2.1.get (i ++ [j]), fun j => A.2.2.get (i ++ [j]))) ∨
    (loops (radius.map fun r => r / rsurf) theta phi src poles nmin nmax mmax G dim = .error .indexError ∧
      ∀ i, Synth.designPoint rsurf src poles dim nmin nmax mmax (radius.at i) (theta.at i) (phi.at i) = .error .indexError) := by
  set x : Ctx := { src, poles, P := legendreArr nmax theta, radius := radius.map fun r => r / rsurf, theta, phi := phi.map Spec.rad, coeffs := zeros [0] } with hx
  have hfit : Fits G x := ⟨h1, h2, h3, fun _ => rfl⟩
  have hsim := foldlM_sim G dim (degreeStep x mmax) (fun i => Synth.designDegree (ctxAt x dim i) mmax) (fun S n hS => degreeStep_sim hfit mmax S hS n)
    (pyRange nmin (nmax + 1)) { num := 0, rn := (radius.map fun r => r / rsurf).map fun r => Synth.rnInit src r nmin, ar := zeros (G ++ [dim]), ath := zeros (G ++ [dim]), ap := zeros (G ++ [dim]) }
    ⟨h1, rfl, rfl, rfl⟩
  have hlow : ∀ i, Synth.designPoint rsurf src poles dim nmin nmax mmax (radius.at i) (theta.at i) (phi.at i) = (do
      let s ← (pyRange nmin (nmax + 1)).foldlM (Synth.designDegree (ctxAt x dim i) mmax)
        (rowsAt { num := 0, rn := (radius.map fun r => r / rsurf).map fun r => Synth.rnInit src r nmin, ar := zeros (G ++ [dim]), ath := zeros (G ++ [dim]), ap := zeros (G ++ [dim]) } i)
      return (s.ar, s.ath, s.ap)) := by
    intro i
    unfold Synth.designPoint
    obtain ⟨T, hT⟩ := legendre_exists nmax hn (theta.at i)
    have hTi : (fun p => (x.P p).at i) = T := by
      funext p
      show (match Legendre.legendrePoly nmax (theta.at i) with | .ok T => T p | .error _ => 0) = T p
      rw [hT]
    simp only [hT]
    unfold ctxAt
    rw [hTi]
    rfl
  unfold loops
  rw [← hx]
  rcases hsim with ⟨S, g1, g2, g3⟩ | ⟨g1, g2⟩
  · left
    refine ⟨(S.ar, S.ath, S.ap), ?_, g2.ar, g2.ath, g2.ap, ?_⟩
    · simp only [bind, Except.bind, pure, Except.pure, g1]
    · intro i
      simp only at g3
      rw [hlow i]
      simp only [bind, Except.bind, pure, Except.pure, g3 i]
      rfl
  · right
    constructor
    · simp only [bind, Except.bind, g1]
    · intro i
      simp only at g2
      rw [hlow i]
      simp only [bind, Except.bind, g2 i]

end ChaosMagPy.DesignArr
