import Verif.Model.CoordArr
import Verif.Lemmas.NumPy
import Verif.Lemmas.Coord
/-! Array expressions with NaN, vectors in the last axis. -/
namespace ChaosMagPy.CoordArr
open ChaosMagPy.Synth (Error)
open ChaosMagPy.NumPy
open ChaosMagPy.Coord (Vec)

theorem bcast_least {s t r G : List ℕ} (h : bcast s t = some r) (h1 : Into s G) (h2 : Into t G) : Into r G := by
  unfold bcast at h
  obtain ⟨r', h3, rfl⟩ := Option.map_eq_some_iff.1 h
  show IntoRev r'.reverse.reverse _
  rw [List.reverse_reverse]
  exact bcastRev_least h3 h1 h2

theorem bcast_of_into {s t G : List ℕ} (h1 : Into s G) (h2 : Into t G) : ∃ r, bcast s t = some r ∧ Into r G := by
  obtain ⟨r, h3, h4⟩ := bcastRev_of_into h1 h2
  refine ⟨r.reverse, by unfold bcast; rw [h3]; rfl, ?_⟩
  show IntoRev r.reverse.reverse _
  rw [List.reverse_reverse]
  exact h4

theorem bcast_iff_into {s t : List ℕ} : bcast s t = some s ↔ Into t s :=
  ⟨fun h => (bcast_into h).2, bcast_self⟩

theorem proj_concat (L j : List ℕ) (n k : ℕ) : proj (L ++ [n]) (j ++ [k]) = proj L j ++ [if n = 1 then 0 else k] := by
  unfold proj
  simp [projRev]

theorem into_concat {L M : List ℕ} {m n : ℕ} (h : Into L M) (hm : m = 1 ∨ m = n) : Into (L ++ [m]) (M ++ [n]) := by
  unfold Into
  simp only [List.reverse_append, List.reverse_cons, List.reverse_nil, List.nil_append, List.singleton_append]
  exact ⟨hm, h⟩

theorem proj_self (L i : List ℕ) : proj L (proj L i) = proj L i := proj_into (into_refl L) i

/-- The expression gives an array that fits into the shape `G` and into which the shapes `src` fit, with the values `u`. -/
def Is (G : List ℕ) (src : List (List ℕ)) (x : NE) (u : List ℕ → Num) : Prop :=
  ∃ a, x.run = .ok a ∧ Into a.shape G ∧ (∀ s ∈ src, Into s a.shape) ∧ ∀ i, a.at i = u i

/-- The expression gives an array of the shape `L` with the values `u`. -/
def Ex (L : List ℕ) (x : NE) (u : List ℕ → Num) : Prop := ∃ a, x.run = .ok a ∧ a.shape = L ∧ ∀ i, a.at i = u i

theorem is_op2 {G : List ℕ} {s t : List (List ℕ)} {x y : NE} {u v : List ℕ → Num} (f : Num → Num → Num) (hx : Is G s x u) (hy : Is G t y v) :
    Is G (s ++ t) ⟨lift2 f x.run y.run⟩ fun i => f (u i) (v i) := by
  obtain ⟨a, h1, h2, h3, h4⟩ := hx
  obtain ⟨b, k1, k2, k3, k4⟩ := hy
  obtain ⟨c, hc, hi, hv⟩ := map2_into f a b G h2 k2
  have hsub : Into a.shape c.shape ∧ Into b.shape c.shape := by
    unfold map2 at hc
    cases hb : bcast a.shape b.shape with
    | none => rw [hb] at hc; cases hc
    | some r =>
      rw [hb] at hc
      cases hc
      exact bcast_into hb
  refine ⟨c, ?_, hi, ?_, fun i => by rw [hv, h4, k4]⟩
  · show lift2 f x.run y.run = _
    rw [h1, k1]
    exact hc
  · intro r hr
    rcases List.mem_append.1 hr with h | h
    · exact into_trans (h3 r h) hsub.1
    · exact into_trans (k3 r h) hsub.2

theorem Is.mul {G : List ℕ} {s t : List (List ℕ)} {x y : NE} {u v : List ℕ → Num} (hx : Is G s x u) (hy : Is G t y v) :
    Is G (s ++ t) (x * y) fun i => nan2 (· * ·) (u i) (v i) := is_op2 _ hx hy
theorem Is.add {G : List ℕ} {s t : List (List ℕ)} {x y : NE} {u v : List ℕ → Num} (hx : Is G s x u) (hy : Is G t y v) :
    Is G (s ++ t) (x + y) fun i => nan2 (· + ·) (u i) (v i) := is_op2 _ hx hy
theorem Is.sub {G : List ℕ} {s t : List (List ℕ)} {x y : NE} {u v : List ℕ → Num} (hx : Is G s x u) (hy : Is G t y v) :
    Is G (s ++ t) (x - y) fun i => nan2 (· - ·) (u i) (v i) := is_op2 _ hx hy
theorem Is.div {G : List ℕ} {s t : List (List ℕ)} {x y : NE} {u v : List ℕ → Num} (hx : Is G s x u) (hy : Is G t y v) :
    Is G (s ++ t) (x / y) fun i => ndiv (u i) (v i) := is_op2 _ hx hy
theorem Is.atan2 {G : List ℕ} {s t : List (List ℕ)} {x y : NE} {u v : List ℕ → Num} (hx : Is G s x u) (hy : Is G t y v) :
    Is G (s ++ t) (atan2 x y) fun i => nan2 Coord.arctan2 (u i) (v i) := is_op2 _ hx hy

theorem Is.app {G : List ℕ} {s : List (List ℕ)} {x : NE} {u : List ℕ → Num} (f : ℝ → ℝ) (hx : Is G s x u) :
    Is G s (NE.app f x) fun i => (u i).map f := by
  obtain ⟨a, h1, h2, h3, h4⟩ := hx
  refine ⟨a.map (Option.map f), by unfold NE.app; rw [h1]; rfl, h2, h3, fun i => ?_⟩
  show Option.map f (a.at i) = _
  rw [h4]

theorem Is.arr {G : List ℕ} (a : Arr Num) (h : Into a.shape G) : Is G [a.shape] (ne a) fun i => a.at i :=
  ⟨a, rfl, h, by intro s hs; rw [List.mem_singleton.1 hs]; exact into_refl _, fun _ => rfl⟩

theorem Is.num {G : List ℕ} (x : Num) : Is G [] (ne (scalar x)) fun _ => x := ⟨scalar x, rfl, into_nil G, (fun _ h => nomatch h), fun _ => rfl⟩

theorem Is.congr {G : List ℕ} {s : List (List ℕ)} {x : NE} {u v : List ℕ → Num} (hx : Is G s x u) (h : ∀ i, u i = v i) : Is G s x v := by
  obtain ⟨a, h1, h2, h3, h4⟩ := hx
  exact ⟨a, h1, h2, h3, fun i => by rw [h4, h]⟩

theorem Is.sub_src {G : List ℕ} {s t : List (List ℕ)} {x : NE} {u : List ℕ → Num} (hx : Is G s x u) (h : ∀ r ∈ t, r ∈ s) : Is G t x u := by
  obtain ⟨a, h1, h2, h3, h4⟩ := hx
  exact ⟨a, h1, h2, fun r hr => h3 r (h r hr), h4⟩

theorem Is.ex {G : List ℕ} {s : List (List ℕ)} {x : NE} {u : List ℕ → Num} (hx : Is G s x u) (hG : ∀ T, (∀ r ∈ s, Into r T) → Into G T) : Ex G x u := by
  obtain ⟨a, h1, h2, h3, h4⟩ := hx
  exact ⟨a, h1, into_antisymm h2 (hG _ h3), h4⟩

theorem Ex.is {L G : List ℕ} {x : NE} {u : List ℕ → Num} (hx : Ex L x u) (h : Into L G) : Is G [L] x u := by
  obtain ⟨a, h1, rfl, h4⟩ := hx
  exact ⟨a, h1, h, by intro s hs; rw [List.mem_singleton.1 hs]; exact into_refl _, h4⟩

/-! ### Vectors -/

/-- Components of a vector, NaN for no vector. -/
def cpt (o : Option Vec) (k : Fin 3) : Num := o.map fun v => v k

/-- The array holds vectors in the last axis; leading shape `L`, components `u`. -/
def VecIs (L : List ℕ) (a : Arr Num) (u : List ℕ → Fin 3 → Num) : Prop :=
  a.shape = L ++ [3] ∧ ∀ (i : List ℕ) (k : Fin 3), a.get (proj L i ++ [k.val]) = u i k

theorem VecIs.congr {L : List ℕ} {a : Arr Num} {u v : List ℕ → Fin 3 → Num} (h : VecIs L a u) (huv : ∀ i, u i = v i) : VecIs L a v :=
  ⟨h.1, fun i k => by rw [h.2, huv]⟩

theorem VecIs.comp {L : List ℕ} {a : Arr Num} {u : List ℕ → Fin 3 → Num} (h : VecIs L a u) (k : Fin 3) : Ex L (comp a k.val) fun i => u i k := by
  refine ⟨⟨L, fun i => a.get (i ++ [k.val])⟩, ?_, rfl, fun i => h.2 i k⟩
  unfold CoordArr.comp
  simp only [h.1, List.getLast?_append, List.getLast?_singleton, Option.some_or]
  rw [if_pos k.isLt, List.dropLast_concat]

theorem stackLast_vec {L : List ℕ} {a b c : Arr Num} {u v w : List ℕ → Num} (ha : a.shape = L) (hb : b.shape = L) (hc : c.shape = L)
    (hu : ∀ i, a.at i = u i) (hv : ∀ i, b.at i = v i) (hw : ∀ i, c.at i = w i) :
    ∃ r, stackLast [a, b, c] = .ok r ∧ VecIs L r fun i => ![u i, v i, w i] := by
  refine ⟨⟨a.shape ++ [3], fun i => ([a, b, c][i.getLastD 0]?).bind fun b => b.get i.dropLast⟩, ?_, ?_, ?_⟩
  · show (if ∀ b' ∈ [a, b, c], b'.shape = a.shape then _ else _) = _
    rw [if_pos]
    · rfl
    · intro d hd
      simp only [List.mem_cons, List.not_mem_nil, or_false] at hd
      rcases hd with rfl | rfl | rfl
      · rfl
      · rw [hb, ha]
      · rw [hc, ha]
  · show a.shape ++ [3] = _
    rw [ha]
  · intro i k
    have e1 : (proj L i ++ [k.val]).getLastD 0 = k.val := by simp
    have e2 : (proj L i ++ [k.val]).dropLast = proj L i := by simp
    show ([a, b, c][(proj L i ++ [k.val]).getLastD 0]?).bind (fun b => b.get (proj L i ++ [k.val]).dropLast) = _
    rw [e1, e2]
    match k with
    | 0 => show a.get (proj L i) = u i; rw [← hu, Arr.at, ha]
    | 1 => show b.get (proj L i) = v i; rw [← hv, Arr.at, hb]
    | 2 => show c.get (proj L i) = w i; rw [← hw, Arr.at, hc]

/-- Cross product of components. -/
def crossN (u v : Fin 3 → Num) : Fin 3 → Num :=
  ![nan2 (· - ·) (nan2 (· * ·) (u 1) (v 2)) (nan2 (· * ·) (u 2) (v 1)), nan2 (· - ·) (nan2 (· * ·) (u 2) (v 0)) (nan2 (· * ·) (u 0) (v 2)),
    nan2 (· - ·) (nan2 (· * ·) (u 0) (v 1)) (nan2 (· * ·) (u 1) (v 0))]

theorem crossN_cpt (o p : Option Vec) : crossN (cpt o) (cpt p) = cpt (o.bind fun x => p.map fun y => Coord.cross x y) := by
  funext k
  cases o with
  | none => match k with | 0 | 1 | 2 => rfl
  | some x =>
    cases p with
    | none => match k with | 0 | 1 | 2 => rfl
    | some y => match k with | 0 | 1 | 2 => rfl

theorem cross_vec {La Lb L : List ℕ} {a b : Arr Num} {u v : List ℕ → Fin 3 → Num} (ha : VecIs La a u) (hb : VecIs Lb b v) (hL : bcast La Lb = some L) :
    ∃ c, cross a b = .ok c ∧ VecIs L c fun i => crossN (u i) (v i) := by
  obtain ⟨i1, i2⟩ := bcast_into hL
  have A := fun k => (ha.comp k).is i1
  have B := fun k => (hb.comp k).is i2
  have key : ∀ p q : Fin 3, Ex L (comp a p.val * comp b q.val - comp a q.val * comp b p.val) fun i =>
      nan2 (· - ·) (nan2 (· * ·) (u i p) (v i q)) (nan2 (· * ·) (u i q) (v i p)) := by
    intro p q
    refine (((A p).mul (B q)).sub ((A q).mul (B p))).ex ?_
    intro T hT
    exact bcast_least hL (hT La (by simp)) (hT Lb (by simp))
  obtain ⟨x, x1, x2, x3⟩ := key 1 2
  obtain ⟨y, y1, y2, y3⟩ := key 2 0
  obtain ⟨z, z1, z2, z3⟩ := key 0 1
  obtain ⟨r, hr, hv⟩ := stackLast_vec x2 y2 z2 x3 y3 z3
  refine ⟨r, ?_, hv⟩
  unfold cross
  rw [if_pos ⟨by rw [ha.1]; simp, by rw [hb.1]; simp⟩]
  simp only [bind, Except.bind]
  have x1' : (comp a 1 * comp b 2 - comp a 2 * comp b 1).run = .ok x := x1
  have y1' : (comp a 2 * comp b 0 - comp a 0 * comp b 2).run = .ok y := y1
  have z1' : (comp a 0 * comp b 1 - comp a 1 * comp b 0).run = .ok z := z1
  rw [x1', y1', z1']
  exact hr

theorem cross_error {La Lb : List ℕ} {a b : Arr Num} {u v : List ℕ → Fin 3 → Num} (ha : VecIs La a u) (hb : VecIs Lb b v) (hL : bcast La Lb = none) :
    cross a b = .error .valueError := by
  obtain ⟨a1, h1, h2, -⟩ := ha.comp 1
  obtain ⟨b2, k1, k2, -⟩ := hb.comp 2
  unfold cross
  rw [if_pos ⟨by rw [ha.1]; simp, by rw [hb.1]; simp⟩]
  have h1' : (comp a 1).run = .ok a1 := h1
  have k1' : (comp b 2).run = .ok b2 := k1
  have : (comp a 1 * comp b 2).run = .error .valueError := by
    show lift2 _ (comp a 1).run (comp b 2).run = _
    rw [h1', k1']
    show map2 _ a1 b2 = _
    unfold map2
    rw [h2, k2, hL]
  have : (comp a 1 * comp b 2 - comp a 2 * comp b 1).run = .error .valueError := by
    show lift2 _ (comp a 1 * comp b 2).run _ = _
    rw [this]
    rfl
  simp only [bind, Except.bind]
  rw [this]

/-- Length of a vector. -/
noncomputable def normN (u : Fin 3 → Num) : Num :=
  (nan2 (· + ·) (nan2 (· + ·) (nan2 (· + ·) (some 0) ((u 0).map (· ^ 2))) ((u 1).map (· ^ 2))) ((u 2).map (· ^ 2))).map Real.sqrt

theorem normKeep_vec {L : List ℕ} {a : Arr Num} {u : List ℕ → Fin 3 → Num} (h : VecIs L a u) :
    ∃ n, normKeep a = .ok n ∧ n.shape = L ++ [1] ∧ ∀ i (k : ℕ), n.get (proj L i ++ [k]) = normN (u i) := by
  refine ⟨⟨L ++ [1], fun i => (((List.range 3).map fun k => a.get (i.dropLast ++ [k])).foldl (fun s x => nan2 (· + ·) s (x.map (· ^ 2))) (some 0)).map Real.sqrt⟩,
    ?_, rfl, ?_⟩
  · unfold normKeep
    simp only [h.1, List.getLast?_append, List.getLast?_singleton, Option.some_or, List.dropLast_concat]
  · intro i k
    have h0 : a.get (proj L i ++ [0]) = u i 0 := h.2 i 0
    have h1 : a.get (proj L i ++ [1]) = u i 1 := h.2 i 1
    have h2 : a.get (proj L i ++ [2]) = u i 2 := h.2 i 2
    have e2 : (proj L i ++ [k]).dropLast = proj L i := by simp
    show (((List.range 3).map fun j => a.get ((proj L i ++ [k]).dropLast ++ [j])).foldl _ (some 0)).map Real.sqrt = _
    rw [e2, show List.range 3 = [0, 1, 2] from rfl]
    simp only [List.map_cons, List.map_nil, List.foldl_cons, List.foldl_nil, h0, h1, h2]
    rfl

theorem div_norm {L : List ℕ} {a b n : Arr Num} {u v : List ℕ → Fin 3 → Num} (h : VecIs L b v)
    (hn : n.shape = L ++ [1]) (hv : ∀ i (k : ℕ), n.get (proj L i ++ [k]) = normN (u i)) :
    ∃ r, (ne b / ne n).run = .ok r ∧ VecIs L r fun i k => ndiv (v i k) (normN (u i)) := by
  have hb : bcast b.shape n.shape = some b.shape := bcast_self (by rw [h.1, hn]; exact into_concat (into_refl L) (Or.inl rfl))
  refine ⟨⟨b.shape, fun i => ndiv (b.at i) (n.at i)⟩, ?_, h.1, ?_⟩
  · show map2 ndiv b n = _
    unfold map2
    rw [hb]
  · intro i k
    show ndiv (b.get (proj b.shape (proj L i ++ [k.val]))) (n.get (proj n.shape (proj L i ++ [k.val]))) = _
    rw [h.1, hn, proj_concat, proj_concat, proj_self, if_neg (by norm_num), h.2, hv]

theorem ndiv_norm (o : Option Vec) : (fun k => ndiv (cpt o k) (normN (cpt o))) = cpt (o.bind Coord.normalize) := by
  cases o with
  | none => rfl
  | some v =>
    have hn : normN (cpt (some v)) = some (Coord.norm v) := by
      simp [normN, cpt, nan2, Coord.norm]
    funext k
    rw [hn]
    show (if Coord.norm v = 0 then none else some (v k / Coord.norm v)) = (Coord.normalize v).map fun w => w k
    unfold Coord.normalize
    by_cases h0 : Coord.norm v = 0
    · rw [if_pos h0, if_pos h0]; rfl
    · rw [if_neg h0, if_neg h0]; rfl

theorem unit_vec {L : List ℕ} {a : Arr Num} {o : List ℕ → Option Vec} (h : VecIs L a fun i => cpt (o i)) :
    ∃ r, unit a = .ok r ∧ VecIs L r fun i => cpt ((o i).bind Coord.normalize) := by
  obtain ⟨n, h1, h2, h3⟩ := normKeep_vec h
  obtain ⟨r, h4, h5⟩ := div_norm (a := a) h h2 h3
  refine ⟨r, ?_, h5.congr fun i => ndiv_norm (o i)⟩
  unfold unit
  rw [h1]
  exact h4

theorem antiUnit_vec {L : List ℕ} {a : Arr Num} {o : List ℕ → Option Vec} (h : VecIs L a fun i => cpt (o i)) :
    ∃ r, antiUnit a = .ok r ∧ VecIs L r fun i => cpt (((o i).bind Coord.normalize).map fun v k => -v k) := by
  obtain ⟨n, h1, h2, h3⟩ := normKeep_vec h
  have hb : VecIs L (a.map (Option.map fun x => -x)) fun i k => (cpt (o i) k).map fun x => -x :=
    ⟨h.1, fun i k => by show Option.map _ (a.get _) = _; rw [h.2]⟩
  obtain ⟨r, h4, h5⟩ := div_norm (a := a) hb h2 h3
  refine ⟨r, ?_, h5.congr fun i => ?_⟩
  · unfold antiUnit
    rw [h1]
    exact h4
  · funext k
    have := congrFun (ndiv_norm (o i)) k
    cases hoi : o i with
    | none => rfl
    | some v =>
      rw [hoi] at this
      have hn : normN (cpt (some v)) = some (Coord.norm v) := by
        simp [normN, cpt, nan2, Coord.norm]
      rw [hn]
      show (if Coord.norm v = 0 then none else some (-v k / Coord.norm v)) = Option.map _ ((Coord.normalize v).map _)
      unfold Coord.normalize
      by_cases h0 : Coord.norm v = 0
      · rw [if_pos h0, if_pos h0]; rfl
      · rw [if_neg h0, if_neg h0, neg_div]; rfl

/-! ### Assignments of components -/

theorem setComp_ok {L : List ℕ} {a x : Arr Num} (k : Fin 3) (ha : a.shape = L ++ [3]) (hx : Into x.shape L) :
    setComp a k.val x = .ok ⟨L ++ [3], fun i => if i.getLastD 0 = k.val then x.at i.dropLast else a.get i⟩ := by
  unfold setComp
  simp only [ha, List.getLast?_append, List.getLast?_singleton, Option.some_or, List.dropLast_concat]
  rw [if_pos k.isLt, if_pos (bcast_self hx)]

theorem setComp_error {L : List ℕ} {a x : Arr Num} (k : Fin 3) (ha : a.shape = L ++ [3]) (hx : ¬ Into x.shape L) :
    setComp a k.val x = .error .valueError := by
  unfold setComp
  simp only [ha, List.getLast?_append, List.getLast?_singleton, Option.some_or, List.dropLast_concat]
  rw [if_pos k.isLt, if_neg (fun h => hx (bcast_iff_into.1 h))]

/-- Three assignments. -/
theorem fill_ok {L : List ℕ} {a x y z : Arr Num} {u v w : List ℕ → Num} (ha : a.shape = L ++ [3]) (hx : Into x.shape L) (hy : Into y.shape L) (hz : Into z.shape L)
    (hu : ∀ i, x.at i = u i) (hv : ∀ i, y.at i = v i) (hw : ∀ i, z.at i = w i) :
    ∃ r, (do let v ← setComp a 0 x; let v ← setComp v 1 y; setComp v 2 z) = .ok r ∧ VecIs L r fun i => ![u i, v i, w i] := by
  refine ⟨⟨L ++ [3], fun i => if i.getLastD 0 = 2 then z.at i.dropLast else if i.getLastD 0 = 1 then y.at i.dropLast else if i.getLastD 0 = 0 then x.at i.dropLast else a.get i⟩,
    ?_, rfl, ?_⟩
  · have e0 := setComp_ok (a := a) 0 ha hx
    have e1 := setComp_ok (L := L) (a := ⟨L ++ [3], fun i => if i.getLastD 0 = 0 then x.at i.dropLast else a.get i⟩) 1 rfl hy
    have e2 := setComp_ok (L := L) (a := ⟨L ++ [3], fun i => if i.getLastD 0 = 1 then y.at i.dropLast else if i.getLastD 0 = 0 then x.at i.dropLast else a.get i⟩) 2 rfl hz
    have e0' : setComp a 0 x = _ := e0
    have e1' : setComp _ 1 y = _ := e1
    have e2' : setComp _ 2 z = _ := e2
    simp only [bind, Except.bind]
    rw [e0']
    dsimp only
    rw [show (fun i : List ℕ => if i.getLastD 0 = (0 : Fin 3).val then x.at i.dropLast else a.get i) = fun i => if i.getLastD 0 = 0 then x.at i.dropLast else a.get i from rfl, e1']
    exact e2'
  · intro i k
    have e1 : (proj L i ++ [k.val]).getLastD 0 = k.val := by simp
    have e2 : (proj L i ++ [k.val]).dropLast = proj L i := by simp
    show (if (proj L i ++ [k.val]).getLastD 0 = 2 then _ else _) = _
    simp only [e1, e2]
    match k with
    | 0 => show x.at (proj L i) = u i; rw [at_proj x hx, hu]
    | 1 => show y.at (proj L i) = v i; rw [at_proj y hy, hv]
    | 2 => show z.at (proj L i) = w i; rw [at_proj z hz, hw]

end ChaosMagPy.CoordArr
