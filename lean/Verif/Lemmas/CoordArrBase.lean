import Verif.Lemmas.CoordArr
/-! Base vectors of arrays of times and dipoles. -/
namespace ChaosMagPy.CoordArr
open ChaosMagPy.Synth (Error)
open ChaosMagPy.NumPy
open ChaosMagPy.Coord (Vec)

/-- The dipole argument is accepted, its dipoles form an array of the shape `L`: an array with a last axis of length 3, two arrays
(colatitude and longitude of the pole) of which the second one fits into the shape of the first one, or three arrays of the same shape. -/
inductive DipoleShape : Dipole → List ℕ → Prop
  | default : DipoleShape .none []
  | array (a : Arr ℝ) (L : List ℕ) (h : a.shape = L ++ [3]) : DipoleShape (.array a) L
  | single (a : Arr ℝ) (L : List ℕ) (h : a.shape = L ++ [3]) : DipoleShape (.tuple [a]) L
  | pole (theta phi : Arr ℝ) (h : bcast theta.shape phi.shape = some theta.shape) : DipoleShape (.tuple [theta, phi]) theta.shape
  | coefficients (g10 g11 h11 : Arr ℝ) (h1 : g11.shape = g10.shape) (h2 : h11.shape = g10.shape) : DipoleShape (.tuple [g10, g11, h11]) g10.shape

/-- The dipole coefficients of an array at an index. -/
def dipoleRow (a : Arr ℝ) (i : List ℕ) : Coord.Dipole :=
  .array (a.get (proj a.shape.dropLast i ++ [0])) (a.get (proj a.shape.dropLast i ++ [1])) (a.get (proj a.shape.dropLast i ++ [2]))

/-- The dipole that belongs to an index of the broadcast result. -/
def Dipole.at (d : Dipole) (i : List ℕ) : Coord.Dipole :=
  match d with
  | .none => .none
  | .array a => dipoleRow a i
  | .tuple [a] => dipoleRow a i
  | .tuple args => .tuple (args.map fun a => a.at i)

theorem row_vec (a : Arr ℝ) (L : List ℕ) (h : a.shape = L ++ [3]) :
    ∃ (v : Arr Num) (o : List ℕ → Option Vec), dipoleToUnit [a] = .ok v ∧ VecIs L v (fun i => cpt (o i)) ∧
      ∀ i, o i = Coord.dipoleArray (a.get (proj L i ++ [0])) (a.get (proj L i ++ [1])) (a.get (proj L i ++ [2])) := by
  have hr : rollLast (ofReal a) = .ok ⟨L ++ [3], fun i => some (a.get (i.dropLast ++ [(i.getLastD 0 + 1) % 3]))⟩ := by
    unfold rollLast ofReal Arr.map
    simp only [h, List.getLast?_append, List.getLast?_singleton, Option.some_or]
  have hv : VecIs L (⟨L ++ [3], fun i => some (a.get (i.dropLast ++ [(i.getLastD 0 + 1) % 3]))⟩ : Arr Num) fun i =>
      cpt (some ![a.get (proj L i ++ [1]), a.get (proj L i ++ [2]), a.get (proj L i ++ [0])]) := by
    refine ⟨rfl, fun i k => ?_⟩
    have e1 : (proj L i ++ [k.val]).getLastD 0 = k.val := by simp
    have e2 : (proj L i ++ [k.val]).dropLast = proj L i := by simp
    simp only [e1, e2]
    match k with | 0 | 1 | 2 => rfl
  obtain ⟨r, h1, h2⟩ := antiUnit_vec hv
  refine ⟨r, _, ?_, h2, fun i => rfl⟩
  unfold dipoleToUnit
  simp only [bind, Except.bind]
  rw [hr]
  exact h1

theorem dipole_vec (config : ℝ × ℝ × ℝ) (d : Dipole) (L : List ℕ) (h : DipoleShape d L) :
    ∃ (v : Arr Num) (o : List ℕ → Option Vec), dipoleToVec config d = .ok v ∧ VecIs L v (fun i => cpt (o i)) ∧ ∀ i, Coord.dipoleToVec config (d.at i) = .ok (o i) := by
  cases h with
  | default =>
    obtain ⟨v, o, h1, h2, h3⟩ := row_vec (configArr config) [] rfl
    refine ⟨v, o, h1, h2, fun i => ?_⟩
    rw [h3]
    rfl
  | array a L h =>
    obtain ⟨v, o, h1, h2, h3⟩ := row_vec a L h
    refine ⟨v, o, h1, h2, fun i => ?_⟩
    rw [h3]
    show Coord.dipoleToVec config (dipoleRow a i) = _
    unfold dipoleRow
    rw [h, List.dropLast_concat]
    rfl
  | single a L h =>
    obtain ⟨v, o, h1, h2, h3⟩ := row_vec a L h
    refine ⟨v, o, h1, h2, fun i => ?_⟩
    rw [h3]
    show Coord.dipoleToVec config (dipoleRow a i) = _
    unfold dipoleRow
    rw [h, List.dropLast_concat]
    rfl
  | pole theta phi h =>
    have hi := bcast_iff_into.1 h
    have T := (Is.arr (G := theta.shape) (ofReal theta) (into_refl _)).app Coord.radians
    have P := (Is.arr (G := theta.shape) (ofReal phi) hi).app Coord.radians
    have hsrc : ∀ (l : List (List ℕ)), theta.shape ∈ l → ∀ T, (∀ r ∈ l, Into r T) → Into theta.shape T := fun l hl T h => h _ hl
    obtain ⟨x, x1, x2, x3⟩ := ((T.app Real.sin).mul (P.app Real.cos)).ex (hsrc _ (by simp [ofReal, Arr.map]))
    obtain ⟨y, y1, y2, y3⟩ := ((T.app Real.sin).mul (P.app Real.sin)).ex (hsrc _ (by simp [ofReal, Arr.map]))
    obtain ⟨z, z1, z2, z3⟩ := (T.app Real.cos).ex (hsrc _ (by simp [ofReal, Arr.map]))
    obtain ⟨r, hr, hv⟩ := stackLast_vec x2 y2 z2 x3 y3 z3
    refine ⟨r, fun i => some ![Real.sin (Coord.radians (theta.at i)) * Real.cos (Coord.radians (phi.at i)),
      Real.sin (Coord.radians (theta.at i)) * Real.sin (Coord.radians (phi.at i)), Real.cos (Coord.radians (theta.at i))], ?_, hv.congr fun i => ?_, fun i => rfl⟩
    · show dipoleToUnit [theta, phi] = _
      unfold dipoleToUnit
      simp only [bind, Except.bind]
      rw [x1, y1, z1]
      exact hr
    · funext k
      match k with | 0 | 1 | 2 => rfl
  | coefficients a b c h1 h2 =>
    obtain ⟨r, hr, hv⟩ := stackLast_vec (a := ofReal b) (b := ofReal c) (c := ofReal a) (L := a.shape) h1 h2 rfl
      (u := fun i => some (b.at i)) (v := fun i => some (c.at i)) (w := fun i => some (a.at i)) (fun _ => rfl) (fun _ => rfl) (fun _ => rfl)
    have hv' : VecIs a.shape r fun i => cpt (some ![b.at i, c.at i, a.at i]) := hv.congr fun i => by
      funext k
      match k with | 0 | 1 | 2 => rfl
    obtain ⟨q, hq, hw⟩ := antiUnit_vec hv'
    refine ⟨q, _, ?_, hw, fun i => rfl⟩
    show dipoleToUnit [a, b, c] = _
    unfold dipoleToUnit
    simp only [bind, Except.bind]
    rw [hr]
    exact hq

/-- The direction of the sun at one time. -/
noncomputable def sunVec (t : ℝ) : Vec := Coord.sphericalToCartesian 1 (Coord.sunPoint t).1 (Coord.sunPoint t).2

theorem s2c_is {G : List ℕ} (theta phi : Arr Num) (ht : Into theta.shape G) (hp : Into phi.shape G) :
    let c := sphericalToCartesian (scalar (some 1)) theta phi
    let p := fun i => (theta.at i).bind fun t => (phi.at i).map fun p => Coord.sphericalToCartesian 1 t p
    Is G [theta.shape, phi.shape] c.1 (fun i => cpt (p i) 0) ∧ Is G [theta.shape, phi.shape] c.2.1 (fun i => cpt (p i) 1) ∧
      Is G [theta.shape] c.2.2 (fun i => (theta.at i).map fun t => 1 * Real.cos (Coord.radians t)) := by
  intro c p
  have T := (Is.arr (G := G) theta ht).app Coord.radians
  have P := (Is.arr (G := G) phi hp).app Coord.radians
  have N := Is.num (G := G) (some 1)
  refine ⟨?_, ?_, ?_⟩
  · refine (((N.mul (P.app Real.cos)).mul (T.app Real.sin)).sub_src (t := [theta.shape, phi.shape]) (by simp)).congr fun i => ?_
    simp only [p]
    cases theta.at i <;> cases phi.at i <;> rfl
  · refine (((N.mul (P.app Real.sin)).mul (T.app Real.sin)).sub_src (t := [theta.shape, phi.shape]) (by simp)).congr fun i => ?_
    simp only [p]
    cases theta.at i <;> cases phi.at i <;> rfl
  · refine ((N.mul (T.app Real.cos)).sub_src (t := [theta.shape]) (by simp)).congr fun i => ?_
    cases theta.at i <;> rfl

theorem sun_vec (time : Arr ℝ) (h : Coord.sunCheck time.data = true) :
    ∃ v, sunVectors time = .ok v ∧ VecIs time.shape v fun i => cpt (some (sunVec (time.at i))) := by
  obtain ⟨h1, h2, h3⟩ := s2c_is (G := time.shape) (time.map fun t => some (Coord.sunPoint t).1) (time.map fun t => some (Coord.sunPoint t).2)
    (into_refl time.shape) (into_refl time.shape)
  obtain ⟨x, x1, x2, x3⟩ := h1.ex (fun T hT => hT time.shape (by simp [Arr.map]))
  obtain ⟨y, y1, y2, y3⟩ := h2.ex (fun T hT => hT time.shape (by simp [Arr.map]))
  obtain ⟨z, z1, z2, z3⟩ := h3.ex (fun T hT => hT time.shape (by simp [Arr.map]))
  obtain ⟨r, hr, hv⟩ := fill_ok (L := time.shape) (a := empty (x.shape ++ [3])) (by rw [x2]; rfl) (by rw [x2]; exact into_refl _) (by rw [y2]; exact into_refl _)
    (by rw [z2]; exact into_refl _) x3 y3 z3
  refine ⟨r, ?_, hv.congr fun i => ?_⟩
  · unfold sunVectors sunPosition
    rw [if_pos h]
    simp only [bind, Except.bind]
    rw [x1, y1, z1]
    exact hr
  · funext k
    match k with | 0 | 1 | 2 => rfl

/-- Components of base vectors at one index against the base vectors of one point (`none`: NaN). -/
def Comps (ob : Option Coord.Base) (u1 u2 u3 : Fin 3 → Num) : Prop :=
  (∀ b, ob = some b → u1 = cpt (some b.e1) ∧ u2 = cpt (some b.e2) ∧ u3 = cpt (some b.e3)) ∧ (ob = none → u2 = cpt none)

/-- Arrays of base vectors with the leading shapes `M1`, `M2`, `M3`. -/
def BaseIs (M1 M2 M3 : List ℕ) (b : Base) (ob : List ℕ → Option Coord.Base) : Prop :=
  ∃ u1 u2 u3, VecIs M1 b.e1 u1 ∧ VecIs M2 b.e2 u2 ∧ VecIs M3 b.e3 u3 ∧ ∀ i, Comps (ob i) (u1 i) (u2 i) (u3 i)

theorem gsm_vec (config : ℝ × ℝ × ℝ) (time : Arr ℝ) (d : Dipole) (L M : List ℕ) (hd : DipoleShape d L) (hM : bcast L time.shape = some M)
    (ht : Coord.sunCheck time.data = true) :
    ∃ (b : Base) (o : List ℕ → Option Vec), baseGsm config time d = .ok b ∧ (∀ i, Coord.dipoleToVec config (d.at i) = .ok (o i)) ∧
      BaseIs time.shape M M b fun i => (o i).bind (Coord.baseGsm (time.at i)) := by
  obtain ⟨v, o, v1, v2, v3⟩ := dipole_vec config d L hd
  obtain ⟨s, s1, s2⟩ := sun_vec time ht
  obtain ⟨c, c1, c2⟩ := cross_vec v2 s2 hM
  have c2' := c2.congr (fun i => crossN_cpt (o i) (some (sunVec (time.at i))))
  obtain ⟨e, e1, e2⟩ := unit_vec c2'
  have hM' : bcast time.shape M = some M := by
    have := (bcast_into hM).2
    obtain ⟨r, hr, hi⟩ := bcast_of_into this (into_refl M)
    rw [hr, into_antisymm hi (bcast_into hr).2]
  obtain ⟨f, f1, f2⟩ := cross_vec s2 e2 hM'
  refine ⟨⟨s, e, f⟩, o, ?_, v3, _, _, _, s2, e2, f2, fun i => ?_⟩
  · unfold baseGsm
    simp only [bind, Except.bind]
    rw [v1, s1]
    simp only
    rw [c1]
    simp only
    rw [e1]
    simp only
    rw [f1]
    rfl
  · simp only [crossN_cpt]
    constructor
    · intro b hb
      cases ho : o i with
      | none => rw [ho] at hb; cases hb
      | some w =>
        rw [ho] at hb
        obtain ⟨g, hg, rfl⟩ := Option.map_eq_some_iff.1 hb
        have hg' : ((some w).bind fun x => Option.map (fun y => Coord.cross x y) (some (sunVec (time.at i)))).bind Coord.normalize = some g := hg
        refine ⟨rfl, by rw [hg'], by rw [hg']; rfl⟩
    · intro hn
      cases ho : o i with
      | none => rfl
      | some w =>
        rw [ho] at hn
        have hg : Coord.normalize (Coord.cross w (sunVec (time.at i))) = none := Option.map_eq_none_iff.1 hn
        show cpt (Coord.normalize (Coord.cross w (sunVec (time.at i)))) = _
        rw [hg]

theorem bcast_refl (L : List ℕ) : bcast L L = some L := bcast_self (into_refl L)

theorem sm_vec (config : ℝ × ℝ × ℝ) (time : Arr ℝ) (d : Dipole) (L : List ℕ) (hd : DipoleShape d L) (hM : Into L time.shape)
    (ht : Coord.sunCheck time.data = true) :
    ∃ (b : Base) (o : List ℕ → Option Vec), baseSm config time d = .ok b ∧ (∀ i, Coord.dipoleToVec config (d.at i) = .ok (o i)) ∧
      BaseIs time.shape time.shape time.shape b fun i => (o i).bind (Coord.baseSm (time.at i)) := by
  obtain ⟨v, o, v1, v2, v3⟩ := dipole_vec config d L hd
  obtain ⟨s, s1, s2⟩ := sun_vec time ht
  obtain ⟨x, x1, x2, x3⟩ := v2.comp 0
  obtain ⟨y, y1, y2, y3⟩ := v2.comp 1
  obtain ⟨z, z1, z2, z3⟩ := v2.comp 2
  obtain ⟨w, w1, w2⟩ := fill_ok (L := time.shape) (a := empty (time.shape ++ [3])) rfl (by rw [x2]; exact hM) (by rw [y2]; exact hM) (by rw [z2]; exact hM) x3 y3 z3
  have w2' : VecIs time.shape w fun i => cpt (o i) := w2.congr fun i => by
    funext k
    match k with | 0 | 1 | 2 => rfl
  obtain ⟨c, c1, c2⟩ := cross_vec w2' s2 (bcast_refl _)
  have c2' := c2.congr (fun i => crossN_cpt (o i) (some (sunVec (time.at i))))
  obtain ⟨e, e1, e2⟩ := unit_vec c2'
  obtain ⟨f, f1, f2⟩ := cross_vec e2 w2' (bcast_refl _)
  refine ⟨⟨f, e, w⟩, o, ?_, v3, _, _, _, f2, e2, w2', fun i => ?_⟩
  · unfold baseSm
    have x1' : (comp v 0).run = _ := x1
    have y1' : (comp v 1).run = _ := y1
    have z1' : (comp v 2).run = _ := z1
    simp only [bind, Except.bind] at w1 ⊢
    rw [v1, s1]
    simp only [x1', y1', z1']
    generalize setComp (empty (time.shape ++ [3])) 0 x = A at w1 ⊢
    cases A with
    | error er => cases w1
    | ok A =>
      simp only at w1 ⊢
      generalize setComp A 1 y = B at w1 ⊢
      cases B with
      | error er => cases w1
      | ok B =>
        simp only at w1 ⊢
        rw [w1]
        simp only [c1, e1, f1]
        rfl
  · simp only [crossN_cpt]
    constructor
    · intro b hb
      cases ho : o i with
      | none => rw [ho] at hb; cases hb
      | some w =>
        rw [ho] at hb
        obtain ⟨g, hg, rfl⟩ := Option.map_eq_some_iff.1 hb
        have hg' : ((some w).bind fun x => Option.map (fun y => Coord.cross x y) (some (sunVec (time.at i)))).bind Coord.normalize = some g := hg
        refine ⟨by rw [hg']; rfl, by rw [hg'], rfl⟩
    · intro hn
      cases ho : o i with
      | none => rfl
      | some w =>
        rw [ho] at hn
        have hg : Coord.normalize (Coord.cross w (sunVec (time.at i))) = none := Option.map_eq_none_iff.1 hn
        show cpt (Coord.normalize (Coord.cross w (sunVec (time.at i)))) = _
        rw [hg]

theorem mag_vec (config : ℝ × ℝ × ℝ) (d : Dipole) (L : List ℕ) (hd : DipoleShape d L) :
    ∃ (b : Base) (o : List ℕ → Option Vec), baseMag config d = .ok b ∧ (∀ i, Coord.dipoleToVec config (d.at i) = .ok (o i)) ∧
      BaseIs L L L b fun i => (o i).bind Coord.baseMag := by
  obtain ⟨v, o, v1, v2, v3⟩ := dipole_vec config d L hd
  have hz : VecIs [] (⟨[3], fun i => if i.headD 0 = 2 then some 1 else some 0⟩ : Arr Num) fun _ => cpt (some ![0, 0, 1]) := by
    refine ⟨rfl, fun i k => ?_⟩
    match k with | 0 | 1 | 2 => simp [proj, projRev, cpt]
  have hb0 : bcast [] L = some L := by
    unfold bcast
    simp [bcastRev]
  obtain ⟨c, c1, c2⟩ := cross_vec hz v2 hb0
  have c2' := c2.congr (fun i => crossN_cpt (some ![0, 0, 1]) (o i))
  obtain ⟨e, e1, e2⟩ := unit_vec c2'
  obtain ⟨f, f1, f2⟩ := cross_vec e2 v2 (bcast_refl _)
  refine ⟨⟨f, e, v⟩, o, ?_, v3, _, _, _, f2, e2, v2, fun i => ?_⟩
  · unfold baseMag
    simp only [bind, Except.bind]
    rw [v1]
    simp only [c1, e1, f1]
    rfl
  · simp only [crossN_cpt]
    constructor
    · intro b hb
      cases ho : o i with
      | none => rw [ho] at hb; cases hb
      | some w =>
        rw [ho] at hb
        obtain ⟨g, hg, rfl⟩ := Option.map_eq_some_iff.1 hb
        have hg' : ((some ![0, 0, 1]).bind fun x => Option.map (fun y => Coord.cross x y) (some w)).bind Coord.normalize = some g := hg
        refine ⟨by rw [hg']; rfl, by rw [hg'], rfl⟩
    · intro hn
      cases ho : o i with
      | none => rfl
      | some w =>
        rw [ho] at hn
        have hg : Coord.normalize (Coord.cross ![0, 0, 1] w) = none := Option.map_eq_none_iff.1 hn
        show cpt (Coord.normalize (Coord.cross ![0, 0, 1] w)) = _
        rw [hg]

end ChaosMagPy.CoordArr
