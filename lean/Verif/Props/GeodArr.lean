import Verif.Props.ElemArr
/-!
# C79: geodetic coordinates of arrays
-/
namespace ChaosMagPy.ElemArr
open ChaosMagPy.Synth (Error)
open ChaosMagPy.NumPy ChaosMagPy.CoordArr ChaosMagPy.Spec
open ChaosMagPy.Coord (Heikkinen)

/-- The square root in the algorithm exists, and the last denominator is positive. -/
theorem heikkinen_defined (a k e r z G P Q : ℝ) (ha : 0 < a) (he : 0 ≤ e) (hk : k = 1 - e) (hk0 : 0 < k) (hr : 0 ≤ r) (hrz : r ≠ 0 ∨ z ≠ 0)
    (hG : G = r ^ 2 + k * z ^ 2 - e ^ 2 * a ^ 2) (hG0 : 0 < G) (h : Heikkinen a k e r z G P Q) :
    0 ≤ 0.5 * a ^ 2 * (1 + 1 / Q) - P * k * z ^ 2 / (Q * (1 + Q)) - 0.5 * P * r ^ 2 ∧
    0 < (r - e * (-P * e * r / (1 + Q) + Real.sqrt (0.5 * a ^ 2 * (1 + 1 / Q) - P * k * z ^ 2 / (Q * (1 + Q)) - 0.5 * P * r ^ 2))) ^ 2 + k * z ^ 2 := by
  have hQ1 := h.Q1
  have hQ : 0 < Q := by linarith
  rcases hr.eq_or_lt with h0 | h0
  · subst h0
    have hz : z ≠ 0 := hrz.resolve_left (by simp)
    have hz2 : 0 < k * z ^ 2 := by positivity
    refine ⟨?_, by positivity⟩
    have hcub : P * G ^ 2 = 2 * k * a ^ 2 * z ^ 2 := by have := h.cubic; simpa using this
    have hQG : Q * G = k * z ^ 2 + e ^ 2 * a ^ 2 := by
      have h1 : (Q * G) ^ 2 = (k * z ^ 2 + e ^ 2 * a ^ 2) ^ 2 := by
        have hG' : G = k * z ^ 2 - e ^ 2 * a ^ 2 := by rw [hG]; ring
        have : (Q * G) ^ 2 = G ^ 2 + 2 * e ^ 2 * (P * G ^ 2) := by rw [mul_pow, h.Q2]; ring
        rw [this, hcub, hG']
        ring
      exact (pow_left_inj₀ (by positivity) (by positivity) two_ne_zero).1 h1
    have h3 : (1 + Q) * G = 2 * k * z ^ 2 := by rw [add_mul, one_mul, hQG, hG]; ring
    have h4 : a ^ 2 * (1 + Q) ^ 2 = 2 * (P * k * z ^ 2) := by
      have : G ^ 2 * (a ^ 2 * (1 + Q) ^ 2 - 2 * (P * k * z ^ 2)) = 0 := by
        linear_combination a ^ 2 * ((1 + Q) * G + 2 * k * z ^ 2) * h3 - 2 * k * z ^ 2 * hcub
      have := (mul_eq_zero.1 this).resolve_left (by positivity)
      linarith
    have : 0.5 * a ^ 2 * (1 + 1 / Q) - P * k * z ^ 2 / (Q * (1 + Q)) - 0.5 * P * 0 ^ 2 = 0 := by
      field_simp
      linear_combination h4 / 2
    rw [this]
  · obtain ⟨ρ, σ, u, hρ, hu, hell, hru, hzu⟩ := Coord.geodetic_exists a k e r z ha he hk hk0 h0 (by rw [← hG]; exact hG0)
    have hreρ : r - e * ρ = u * ρ := by rw [hru]; ring
    have hlt : e * ρ < r := by nlinarith [mul_pos hu hρ]
    have hf : ρ ^ 2 * (r - e * ρ) ^ 2 + k * z ^ 2 * ρ ^ 2 = a ^ 2 * (r - e * ρ) ^ 2 := by
      rw [hreρ, hzu]; linear_combination (u ^ 2 * ρ ^ 2) * hell
    have hroot := Coord.heikkinen_root a k e r z G P Q ρ he hk hk0.le h0 hG hG0 h hρ hlt hf
    have hA : 0 ≤ P * e * r / (1 + Q) := by
      have := h.P0
      positivity
    have hA' : -P * e * r / (1 + Q) = -(P * e * r / (1 + Q)) := by ring
    constructor
    · have : 0 < Real.sqrt (0.5 * a ^ 2 * (1 + 1 / Q) - P * k * z ^ 2 / (Q * (1 + Q)) - 0.5 * P * r ^ 2) := by
        rw [hA'] at hroot
        linarith
      exact (Real.sqrt_pos.1 this).le
    · rw [hroot]
      have : 0 < r - e * ρ := by linarith
      positivity

/-- All the intermediate results of the algorithm are defined for points further than `(a² - b²)/b` from the centre. -/
theorem geo_defined (a b R θ : ℝ) (hb : 0 < b) (hab : b ≤ a) (h1 : 0 ≤ θ) (h2 : θ ≤ 180) (hR : a ^ 2 - b ^ 2 < b * R) :
    let a2 := a ^ 2
    let b2 := b ^ 2
    let e2 := (a2 - b2) / a2
    let e4 := e2 * e2
    let r := R * Real.sin (Coord.radians θ)
    let z := R * Real.cos (Coord.radians θ)
    let r2 := r ^ 2
    let z2 := z ^ 2
    let F := 54 * b2 * z2
    let G := r2 + (1 - e2) * z2 - e2 * (a2 - b2)
    let c := e4 * F * r2 / G ^ 3
    let s := (1 + c + Real.sqrt (c ^ 2 + 2 * c)) ^ ((1 : ℝ) / 3)
    let P := F / (3 * (s + 1 / s + 1) ^ 2 * G ^ 2)
    let Q := Real.sqrt (1 + 2 * e4 * P)
    let r0 := -P * e2 * r / (1 + Q) + Real.sqrt (0.5 * a2 * (1 + 1 / Q) - P * (1 - e2) * z2 / (Q * (1 + Q)) - 0.5 * P * r2)
    0 < G ∧ 0 ≤ c ∧ 0 < s ∧ 0 ≤ 1 + 2 * e4 * P ∧ 0 < Q ∧
    0 ≤ 0.5 * a2 * (1 + 1 / Q) - P * (1 - e2) * z2 / (Q * (1 + Q)) - 0.5 * P * r2 ∧ 0 < (r - e2 * r0) ^ 2 + (1 - e2) * z2 := by
  intro a2 b2 e2 e4 r z r2 z2 F G c s P Q r0
  have ha : 0 < a := by linarith
  have hpi := Real.pi_pos
  have hR0 : 0 < R := by
    have : 0 < b * R := by nlinarith
    exact (mul_pos_iff_of_pos_left hb).1 this
  have he0 : 0 ≤ e2 := div_nonneg (by show 0 ≤ a ^ 2 - b ^ 2; nlinarith) (by positivity)
  have hk : b ^ 2 / a ^ 2 = 1 - e2 := by show _ = 1 - (a ^ 2 - b ^ 2) / a ^ 2; field_simp; ring
  have hk0 : 0 < 1 - e2 := by rw [← hk]; positivity
  have hb2 : b ^ 2 = (1 - e2) * a ^ 2 := by rw [← hk]; field_simp
  have hab2 : a ^ 2 - b ^ 2 = e2 * a ^ 2 := by rw [hb2]; ring
  have hr : 0 ≤ r := mul_nonneg hR0.le (Real.sin_nonneg_of_nonneg_of_le_pi (by unfold Coord.radians; positivity) (by unfold Coord.radians; nlinarith))
  have hRR : R ^ 2 = r ^ 2 + z ^ 2 := by
    show _ = (R * Real.sin _) ^ 2 + (R * Real.cos _) ^ 2
    linear_combination (-R ^ 2) * Real.sin_sq_add_cos_sq (Coord.radians θ)
  have hcond := Coord.radius_condition a b R r z e2 ha hb hab he0 hb2 hR hRR
  have hGe : G = r ^ 2 + (1 - e2) * z ^ 2 - e2 ^ 2 * a ^ 2 := by
    show r ^ 2 + (1 - e2) * z ^ 2 - e2 * (a ^ 2 - b ^ 2) = _
    rw [hab2]; ring
  have hG0 : 0 < G := by rw [hGe]; exact hcond
  have hF : 0 ≤ F := by show 0 ≤ 54 * b ^ 2 * z ^ 2; positivity
  have he4 : 0 ≤ e4 := mul_self_nonneg _
  have hr2 : 0 ≤ r2 := sq_nonneg _
  have hc : 0 ≤ c := by show 0 ≤ e4 * F * r2 / G ^ 3; positivity
  obtain ⟨hs, -, -⟩ := Coord.heikkinen_s c hc
  have hP : 0 ≤ P := by show 0 ≤ F / (3 * (s + 1 / s + 1) ^ 2 * G ^ 2); positivity
  have hPQ := Coord.heikkinen_PQ a (1 - e2) e2 r z G hk0.le hG0
  have hH : Heikkinen a (1 - e2) e2 r z G P Q := by
    have e1 : (1 - e2) * a ^ 2 = b2 := hb2.symm
    simp only [e1] at hPQ
    exact hPQ
  have hrz : r ≠ 0 ∨ z ≠ 0 := by
    by_contra hcon
    push Not at hcon
    rw [hcon.1, hcon.2] at hRR
    nlinarith
  obtain ⟨d1, d2⟩ := heikkinen_defined a (1 - e2) e2 r z G P Q ha he0 rfl hk0 hr hrz hGe hG0 hH
  exact ⟨hG0, hc, hs, by positivity, by linarith [hH.Q1], d1, d2⟩

/-- The base vectors of an array: shape and values. -/
theorem baseGg_elem {V : List ℕ → Prop} (theta beta : Arr Num) (f g : List ℕ → ℝ) (hf : ∀ i, V i → theta.at i = some (f i)) (hg : ∀ i, V i → beta.at i = some (g i)) :
    (∀ S, bcast theta.shape beta.shape = some S → ∃ g1 g2 g3, baseGg theta beta = .ok (g1, g2, g3) ∧
      g1.shape = S ++ [3] ∧ g2.shape = S ++ [3] ∧ g3.shape = S ++ [3] ∧
      ∀ k : Fin 3, Elem V [S] (comp g1 k.val) (fun i => (Coord.baseGg (f i) (g i)).e1 k) ∧ Elem V [S] (comp g2 k.val) (fun i => (Coord.baseGg (f i) (g i)).e2 k) ∧
        Elem V [S] (comp g3 k.val) (fun i => (Coord.baseGg (f i) (g i)).e3 k)) ∧
    (bcast theta.shape beta.shape = none → baseGg theta beta = .error .valueError) := by
  have P := ((Elem.leaf theta hf).sub (Elem.leaf beta hg)).app Coord.radians
  have hb : broadcast [theta.shape, beta.shape] = bcast theta.shape beta.shape := by
    have := broadcast_append [theta.shape] [beta.shape]
    rw [broadcast_single, broadcast_single] at this
    exact this
  constructor
  · intro S hS
    obtain ⟨p, p1, p2, -, p4⟩ := P.holds (hb.trans hS)
    have hi : Into p.shape S := by rw [p2]; exact into_refl S
    have hm : ∀ q : ℝ → ℝ, ∀ i, V i → (p.map (Option.map q)).at i = some (q (Coord.radians (f i - g i))) := by
      intro q i hv
      show Option.map q (p.at i) = _
      rw [p4 i hv]
      rfl
    have vec : ∀ (a : Arr Num) (u : List ℕ → Fin 3 → ℝ), a.shape = S ++ [3] → (∀ i, V i → ∀ k : Fin 3, a.get (proj S i ++ [k.val]) = some (u i k)) →
        ∀ k : Fin 3, Elem V [S] (comp a k.val) fun i => u i k := by
      intro a u ha hu k
      refine ⟨fun G hG => ?_, fun hn => by rw [broadcast_single] at hn; cases hn⟩
      rw [broadcast_single] at hG
      cases hG
      refine ⟨⟨S, fun i => a.get (i ++ [k.val])⟩, ?_, rfl, fun i hv => hu i hv k⟩
      unfold CoordArr.comp
      simp only [ha, List.getLast?_append, List.getLast?_singleton, Option.some_or]
      rw [if_pos k.isLt, List.dropLast_concat]
    let zero : Arr Num := ⟨S ++ [3], fun _ => some 0⟩
    let w1 (q : ℝ → ℝ) : Arr Num := ⟨S ++ [3], fun i => if i.getLastD 0 = 0 then (p.map (Option.map q)).at i.dropLast else some 0⟩
    let w2 (q q' : ℝ → ℝ) : Arr Num := ⟨S ++ [3], fun i => if i.getLastD 0 = 1 then (p.map (Option.map q')).at i.dropLast else (w1 q).get i⟩
    let w3 : Arr Num := ⟨S ++ [3], fun i => if i.getLastD 0 = 2 then (scalar (some (1 : ℝ))).at i.dropLast else some 0⟩
    have s1 : ∀ q, setComp zero 0 (p.map (Option.map q)) = .ok (w1 q) := fun q => setComp_ok (a := zero) (0 : Fin 3) rfl hi
    have s2 : setComp zero 2 (scalar (some 1)) = .ok w3 := setComp_ok (a := zero) (2 : Fin 3) rfl (into_nil S)
    have s3 : ∀ q q', setComp (w1 q) 1 (p.map (Option.map q')) = .ok (w2 q q') := fun q q' => setComp_ok (a := w1 q) (1 : Fin 3) rfl hi
    have hrun : baseGg theta beta = .ok (w2 (fun x => -Real.sin x) fun x => -Real.cos x, w3, w2 (fun x => -Real.cos x) Real.sin) := by
      unfold baseGg
      simp only [bind, Except.bind]
      rw [p1]
      simp only
      rw [hS]
      simp only
      rw [show (⟨S ++ [3], fun _ => some 0⟩ : Arr Num) = zero from rfl, s1]
      simp only
      rw [s3, s2]
      simp only
      rw [s1]
      simp only
      rw [s3]
      rfl
    have hw2 : ∀ q q' i, V i → ∀ k : Fin 3, (w2 q q').get (proj S i ++ [k.val]) =
        some ((![q (Coord.radians (f i - g i)), q' (Coord.radians (f i - g i)), 0] : Fin 3 → ℝ) k) := by
      intro q q' i hv k
      have e1 : (proj S i ++ [k.val]).getLastD 0 = k.val := by simp
      have e2 : (proj S i ++ [k.val]).dropLast = proj S i := by simp
      show (if (proj S i ++ [k.val]).getLastD 0 = 1 then _ else if (proj S i ++ [k.val]).getLastD 0 = 0 then _ else _) = _
      simp only [e1, e2]
      match k with
      | 0 => show (p.map (Option.map q)).at (proj S i) = _; rw [at_proj (p.map (Option.map q)) hi, hm q i hv]; rfl
      | 1 => show (p.map (Option.map q')).at (proj S i) = _; rw [at_proj (p.map (Option.map q')) hi, hm q' i hv]; rfl
      | 2 => rfl
    have hw3 : ∀ i, V i → ∀ k : Fin 3, w3.get (proj S i ++ [k.val]) = some ((![0, 0, 1] : Fin 3 → ℝ) k) := by
      intro i _ k
      have e1 : (proj S i ++ [k.val]).getLastD 0 = k.val := by simp
      show (if (proj S i ++ [k.val]).getLastD 0 = 2 then some (1 : ℝ) else some 0) = _
      simp only [e1]
      match k with
      | 0 => rfl
      | 1 => rfl
      | 2 => rfl
    exact ⟨_, _, _, hrun, rfl, rfl, rfl, fun k => ⟨vec _ _ rfl (hw2 _ _) k, vec _ _ rfl hw3 k, vec _ _ rfl (hw2 _ _) k⟩⟩
  · intro hn
    unfold baseGg
    rw [P.2 (hb.trans hn)]
    rfl

theorem bcast_pair (s t : List ℕ) : broadcast [s, t] = bcast s t := by
  have := broadcast_append [s] [t]
  rw [broadcast_single, broadcast_single] at this
  exact this

/-- **C79** (geodetic base vectors). The last axis holds the components up, south and east of north, east and down. -/
theorem C79_basevectors_gg (theta beta : Arr ℝ) : Fits [theta.shape, beta.shape] (baseGg (ofReal theta) (ofReal beta)) fun g =>
    ∃ S, broadcast [theta.shape, beta.shape] = some S ∧ g.1.shape = S ++ [3] ∧ g.2.1.shape = S ++ [3] ∧ g.2.2.shape = S ++ [3] ∧
      ∀ i, Valid S i → ∀ k : Fin 3, g.1.get (i ++ [k.val]) = some ((Coord.baseGg (theta.at i) (beta.at i)).e1 k) ∧
        g.2.1.get (i ++ [k.val]) = some ((Coord.baseGg (theta.at i) (beta.at i)).e2 k) ∧ g.2.2.get (i ++ [k.val]) = some ((Coord.baseGg (theta.at i) (beta.at i)).e3 k) := by
  obtain ⟨h1, h2⟩ := baseGg_elem (V := fun _ => True) (ofReal theta) (ofReal beta) theta.at beta.at (fun _ _ => rfl) (fun _ _ => rfl)
  refine ⟨fun hb => ?_, fun hb => h2 ((bcast_pair _ _).symm.trans hb)⟩
  obtain ⟨S, hS⟩ := Option.ne_none_iff_exists'.1 hb
  obtain ⟨g1, g2, g3, hr, s1, s2, s3, hk⟩ := h1 S ((bcast_pair _ _).symm.trans hS)
  refine ⟨(g1, g2, g3), hr, S, hS, s1, s2, s3, fun i hi k => ?_⟩
  obtain ⟨k1, k2, k3⟩ := hk k
  have sel : ∀ (a : Arr Num) (u : List ℕ → ℝ), a.shape = S ++ [3] → Elem (fun _ => True) [S] (comp a k.val) u → a.get (i ++ [k.val]) = some (u i) := by
    intro a u ha hu
    obtain ⟨c, c1, c2, c3⟩ := hu.1 S (broadcast_single S)
    unfold CoordArr.comp at c1
    simp only [ha, List.getLast?_append, List.getLast?_singleton, Option.some_or] at c1
    rw [if_pos k.isLt, List.dropLast_concat] at c1
    cases c1
    have := c3 i trivial
    rw [at_valid _ i (by exact hi)] at this
    exact this
  exact ⟨sel g1 _ s1 k1, sel g2 _ s2 k2, sel g3 _ s3 k3⟩

/-- Coordinates of `gg_to_geo`. -/
theorem gg_coords (a b : ℝ) (ha : 0 < a) (hb : 0 < b) (height beta : Arr ℝ) :
    let alpha := NE.app Coord.radians (num 90 - arr beta)
    let sin2 := NE.app (· ^ 2) (NE.app Real.sin alpha)
    let cos2 := NE.app (· ^ 2) (NE.app Real.cos alpha)
    let factor := arr height * part nsqrt (num (a ^ 2) * cos2 + num (b ^ 2) * sin2)
    let gamma := atan2 ((factor + num (b ^ 2)) * NE.app Real.tan alpha) (factor + num (a ^ 2))
    Elem (fun _ => True) [height.shape, beta.shape] (num 90 - NE.app Coord.degrees gamma) (fun i => (Coord.ggToGeo a b (height.at i) (beta.at i)).2) ∧
    Elem (fun _ => True) [height.shape, beta.shape] (part nsqrt (NE.app (· ^ 2) (arr height) + num 2 * factor +
      num (a ^ 2) * (num 1 - num (1 - (b / a) ^ 4) * sin2) / (num 1 - num (1 - (b / a) ^ 2) * sin2)))
      (fun i => (Coord.ggToGeo a b (height.at i) (beta.at i)).1) := by
  intro alpha sin2 cos2 factor gamma
  have H := Elem.arr (V := fun _ => True) height
  have A : Elem (fun _ => True) [[], beta.shape] alpha fun i => Coord.radians (90 - beta.at i) := ((Elem.num 90).sub (Elem.arr beta)).app Coord.radians
  have S2 : Elem (fun _ => True) [[], beta.shape] sin2 fun i => Real.sin (Coord.radians (90 - beta.at i)) ^ 2 := (A.app Real.sin).app (· ^ 2)
  have C2 : Elem (fun _ => True) [[], beta.shape] cos2 fun i => Real.cos (Coord.radians (90 - beta.at i)) ^ 2 := (A.app Real.cos).app (· ^ 2)
  have F := H.mul ((((Elem.num (a ^ 2)).mul C2).add ((Elem.num (b ^ 2)).mul S2)).sqrt (fun i _ => by positivity))
  have G := (((F.add (Elem.num (b ^ 2))).mul (A.app Real.tan)).atan2 (F.add (Elem.num (a ^ 2))))
  have T := (Elem.num (V := fun _ => True) 90).sub (G.app Coord.degrees)
  have key : ∀ i, 0 < 1 - (1 - (b / a) ^ 2) * Real.sin (Coord.radians (90 - beta.at i)) ^ 2 := by
    intro i
    have hsc := Real.sin_sq_add_cos_sq (Coord.radians (90 - beta.at i))
    have : 1 - (1 - (b / a) ^ 2) * Real.sin (Coord.radians (90 - beta.at i)) ^ 2 =
        (a ^ 2 * Real.cos (Coord.radians (90 - beta.at i)) ^ 2 + b ^ 2 * Real.sin (Coord.radians (90 - beta.at i)) ^ 2) / a ^ 2 := by
      field_simp
      linear_combination -a ^ 2 * hsc
    rw [this]
    exact div_pos (Coord.radicand_pos a b _ ha hb) (by positivity)
  have D := ((Elem.num (V := fun _ => True) (a ^ 2)).mul ((Elem.num 1).sub ((Elem.num (1 - (b / a) ^ 4)).mul S2))).div
    ((Elem.num 1).sub ((Elem.num (1 - (b / a) ^ 2)).mul S2)) (fun i _ => (key i).ne')
  have R := (((H.app (· ^ 2)).add ((Elem.num 2).mul F)).add D).sqrt (by
    intro i _
    beta_reduce
    have hk := key i
    have hsc := Real.sin_sq_add_cos_sq (Coord.radians (90 - beta.at i))
    have hW := Coord.radicand_pos a b (Coord.radians (90 - beta.at i)) ha hb
    generalize hs : Real.sin (Coord.radians (90 - beta.at i)) = s at *
    generalize hc : Real.cos (Coord.radians (90 - beta.at i)) = c at *
    have hsq := Real.sq_sqrt hW.le
    generalize Real.sqrt (a ^ 2 * c ^ 2 + b ^ 2 * s ^ 2) = W at *
    generalize height.at i = h
    have hD : a ^ 2 * (1 - (1 - (b / a) ^ 4) * s ^ 2) / (1 - (1 - (b / a) ^ 2) * s ^ 2) = (a ^ 4 * c ^ 2 + b ^ 4 * s ^ 2) / (a ^ 2 * c ^ 2 + b ^ 2 * s ^ 2) := by
      rw [div_eq_div_iff hk.ne' hW.ne']
      have hc2 : c ^ 2 = 1 - s ^ 2 := by linarith
      rw [hc2]
      field_simp
      ring
    rw [hD]
    have : a ^ 2 * c ^ 2 + b ^ 2 * s ^ 2 ≤ (a ^ 4 * c ^ 2 + b ^ 4 * s ^ 2) / (a ^ 2 * c ^ 2 + b ^ 2 * s ^ 2) := by
      rw [le_div_iff₀ hW]
      have hc2 : c ^ 2 = 1 - s ^ 2 := by linarith
      have : a ^ 4 * c ^ 2 + b ^ 4 * s ^ 2 - (a ^ 2 * c ^ 2 + b ^ 2 * s ^ 2) * (a ^ 2 * c ^ 2 + b ^ 2 * s ^ 2) = (a ^ 2 - b ^ 2) ^ 2 * (c ^ 2 * s ^ 2) := by
        rw [hc2]; ring
      have h0 : 0 ≤ (a ^ 2 - b ^ 2) ^ 2 * (c ^ 2 * s ^ 2) := by positivity
      linarith
    nlinarith [sq_nonneg (h + W)])
  exact ⟨T.src (broadcast_drop (by simp) (by simp)), R.src (broadcast_drop (by simp) (by simp))⟩

/-- Rotated components: products with the base vectors of arrays of the shape `S`. -/
theorem rotated {V : List ℕ → Prop} {S s t : List ℕ} {l : List (List ℕ)} (hS : broadcast l = some S) {p q x y : NE} {f g u v : List ℕ → ℝ} (hp : Elem V [S] p f)
    (hq : Elem V [S] q g) (hx : Elem V [s] x u) (hy : Elem V [t] y v) : Elem V (l ++ [s, t]) (p * x + q * y) fun i => f i * u i + g i * v i := by
  refine ((hp.mul hx).add (hq.mul hy)).src (broadcast_eq fun T => ?_)
  rw [broadcast_iff] at hS
  constructor
  · intro h r hr
    rcases List.mem_append.1 hr with h1 | h1
    · exact into_trans (hS.1 r h1) (h S (by simp))
    · exact h r (by simp only [List.mem_append, List.mem_singleton, List.mem_cons, List.not_mem_nil, or_false] at h1 ⊢; tauto)
  · intro h r hr
    have hST : Into S T := hS.2 T fun q hq => h q (List.mem_append_left _ hq)
    simp only [List.mem_append, List.mem_singleton] at hr
    rcases hr with (rfl | rfl) | rfl | rfl
    · exact hST
    · exact h _ (by simp)
    · exact hST
    · exact h _ (by simp)

/-- Coordinates and, if asked for, components of an array: `l` are the shapes of the two coordinate arguments, `f`, `g` the coordinates
and `u`, `v` the components of single points. -/
def GeoHolds (l : List (List ℕ)) (V : List ℕ → Prop) (f g : List ℕ → ℝ) (r : Geo) : Prop := Holds l r.first V f ∧ Holds l r.second V g

/-- **C79** (geodetic to geocentric). Without components, or with only one of them, `gg_to_geo` returns two arrays of the broadcast shape: the
coordinates of each point, never NaN. With both components it returns the rotated components as well, of the broadcast shape
of all four arguments. Other shapes give ValueError. -/
theorem C79_gg_to_geo (a b : ℝ) (ha : 0 < a) (hb : 0 < b) (height beta X Z : Arr ℝ) :
    (∀ X' Z' : Option (Arr ℝ), X' = none ∨ Z' = none → Fits [height.shape, beta.shape] (ggToGeo a b height beta X' Z') fun r =>
      r.components = none ∧ GeoHolds [height.shape, beta.shape] (fun _ => True) (fun i => (Coord.ggToGeo a b (height.at i) (beta.at i)).1)
        (fun i => (Coord.ggToGeo a b (height.at i) (beta.at i)).2) r) ∧
    Fits [height.shape, beta.shape, X.shape, Z.shape] (ggToGeo a b height beta (some X) (some Z)) fun r =>
      GeoHolds [height.shape, beta.shape] (fun _ => True) (fun i => (Coord.ggToGeo a b (height.at i) (beta.at i)).1)
        (fun i => (Coord.ggToGeo a b (height.at i) (beta.at i)).2) r ∧
      ∃ c, r.components = some c ∧
        Holds [height.shape, beta.shape, X.shape, Z.shape] c.1 (fun _ => True) (fun i => (Coord.ggToGeoVec a b (height.at i) (beta.at i) (X.at i) (Z.at i)).2.1) ∧
        Holds [height.shape, beta.shape, X.shape, Z.shape] c.2 (fun _ => True) (fun i => (Coord.ggToGeoVec a b (height.at i) (beta.at i) (X.at i) (Z.at i)).2.2) := by
  obtain ⟨hT, hR⟩ := gg_coords a b ha hb height beta
  refine ⟨fun X' Z' hXZ => ⟨fun hbr => ?_, fun hn => ?_⟩, fun hbr => ?_, fun hn => ?_⟩
  · obtain ⟨S, hS⟩ := Option.ne_none_iff_exists'.1 hbr
    obtain ⟨t, t1, -, t3, -⟩ := hT.holds hS
    obtain ⟨r, r1, -, r3, -⟩ := hR.holds hS
    refine ⟨⟨r, t, none⟩, ?_, rfl, r3, t3⟩
    unfold ggToGeo
    simp only [bind, Except.bind]
    rw [t1]
    simp only
    rw [r1]
    rcases hXZ with rfl | rfl
    · rfl
    · cases X' <;> rfl
  · unfold ggToGeo
    simp only [bind, Except.bind]
    rw [hT.2 hn]
  · obtain ⟨S', hS'⟩ := Option.ne_none_iff_exists'.1 hbr
    obtain ⟨S, hS, hSS⟩ := broadcast_of_into (l := [height.shape, beta.shape]) (G := S') (fun s hs => broadcast_into hS' s (by
      simp only [List.mem_cons, List.not_mem_nil, or_false] at hs ⊢; tauto))
    obtain ⟨t, t1, t2, t3, t4⟩ := hT.holds hS
    obtain ⟨r, r1, -, r3, -⟩ := hR.holds hS
    have hbS : bcast t.shape (ofReal beta).shape = some S := by
      rw [t2]
      exact bcast_self (broadcast_into hS beta.shape (by simp))
    obtain ⟨g1, g2, g3, hg, -, -, -, hk⟩ := (baseGg_elem (V := fun _ => True) t (ofReal beta) _ beta.at t4 (fun _ _ => rfl)).1 S hbS
    obtain ⟨Br, b1, -, b3, -⟩ := (rotated hS (hk 0).1 (hk 0).2.2 (Elem.arr X) (Elem.arr Z)).holds hS'
    obtain ⟨Bt, c1, -, c3, -⟩ := (rotated hS (hk 1).1 (hk 1).2.2 (Elem.arr X) (Elem.arr Z)).holds hS'
    refine ⟨⟨r, t, some (Br, Bt)⟩, ?_, ⟨r3, t3⟩, (Br, Bt), rfl, b3, c3⟩
    unfold ggToGeo
    simp only [bind, Except.bind]
    rw [t1]
    simp only
    rw [r1]
    simp only
    rw [hg]
    simp only
    have b1' : (comp g1 0 * arr X + comp g3 0 * arr Z).run = .ok Br := b1
    have c1' : (comp g1 1 * arr X + comp g3 1 * arr Z).run = .ok Bt := c1
    rw [b1']
    simp only
    rw [c1']
    rfl
  · cases hS : broadcast [height.shape, beta.shape] with
    | none =>
      unfold ggToGeo
      simp only [bind, Except.bind]
      rw [hT.2 hS]
    | some S =>
      obtain ⟨t, t1, t2, t3, t4⟩ := hT.holds hS
      obtain ⟨r, r1, -, r3, -⟩ := hR.holds hS
      have hbS : bcast t.shape (ofReal beta).shape = some S := by
        rw [t2]
        exact bcast_self (broadcast_into hS beta.shape (by simp))
      obtain ⟨g1, g2, g3, hg, -, -, -, hk⟩ := (baseGg_elem (V := fun _ => True) t (ofReal beta) _ beta.at t4 (fun _ _ => rfl)).1 S hbS
      have b1 := (rotated hS (hk 0).1 (hk 0).2.2 (Elem.arr X) (Elem.arr Z)).2 hn
      unfold ggToGeo
      simp only [bind, Except.bind]
      rw [t1]
      simp only
      rw [r1]
      simp only
      rw [hg]
      simp only
      have b1' : (comp g1 0 * arr X + comp g3 0 * arr Z).run = .error .valueError := b1
      rw [b1']

/-- The points for which the algorithm is made: colatitudes from pole to pole, further than `(a² - b²)/b` (43 km for WGS84) from the centre. -/
def Outside (a b : ℝ) (radius theta : Arr ℝ) (i : List ℕ) : Prop := 0 ≤ theta.at i ∧ theta.at i ≤ 180 ∧ a ^ 2 - b ^ 2 < b * radius.at i

set_option maxHeartbeats 2000000 in
/-- Coordinates of `geo_to_gg`. -/
theorem geo_coords (a b : ℝ) (hb : 0 < b) (hab : b ≤ a) (radius theta : Arr ℝ) :
    let a2 := a ^ 2
    let b2 := b ^ 2
    let e2 := (a2 - b2) / a2
    let e4 := e2 * e2
    let ep2 := (a2 - b2) / b2
    let r := arr radius * NE.app Real.sin (NE.app Coord.radians (arr theta))
    let z := arr radius * NE.app Real.cos (NE.app Coord.radians (arr theta))
    let r2 := NE.app (· ^ 2) r
    let z2 := NE.app (· ^ 2) z
    let F := num (54 * b2) * z2
    let G := r2 + num (1 - e2) * z2 - num (e2 * (a2 - b2))
    let c := num e4 * F * r2 / NE.app (· ^ 3) G
    let s := part ncbrt (num 1 + c + part nsqrt (NE.app (· ^ 2) c + num 2 * c))
    let P := F / (num 3 * NE.app (· ^ 2) (s + num 1 / s + num 1) * NE.app (· ^ 2) G)
    let Q := part nsqrt (num 1 + num (2 * e4) * P)
    let r0 := NE.app (fun x => -x) P * num e2 * r / (num 1 + Q) +
      part nsqrt (num (0.5 * a2) * (num 1 + num 1 / Q) - P * num (1 - e2) * z2 / (Q * (num 1 + Q)) - num 0.5 * P * r2)
    let U := part nsqrt (NE.app (· ^ 2) (r - num e2 * r0) + z2)
    let V := part nsqrt (NE.app (· ^ 2) (r - num e2 * r0) + num (1 - e2) * z2)
    let z0 := num b2 * z / (num a * V)
    Elem (Outside a b radius theta) [radius.shape, theta.shape] (U * (num 1 - num b2 / (num a * V))) (fun i => (Coord.geoToGg a b (radius.at i) (theta.at i)).1) ∧
    Elem (Outside a b radius theta) [radius.shape, theta.shape] (num 90 - NE.app Coord.degrees (atan2 (z + num ep2 * z0) r))
      (fun i => (Coord.geoToGg a b (radius.at i) (theta.at i)).2) := by
  intro a2 b2 e2 e4 ep2 r z r2 z2 F G c s P Q r0 U V z0
  have ha : 0 < a := by linarith
  let W := Outside a b radius theta
  let L := [radius.shape, theta.shape]
  -- values
  let rf : List ℕ → ℝ := fun i => radius.at i * Real.sin (Coord.radians (theta.at i))
  let zf : List ℕ → ℝ := fun i => radius.at i * Real.cos (Coord.radians (theta.at i))
  let r2f : List ℕ → ℝ := fun i => rf i ^ 2
  let z2f : List ℕ → ℝ := fun i => zf i ^ 2
  let Ff : List ℕ → ℝ := fun i => 54 * b2 * z2f i
  let Gf : List ℕ → ℝ := fun i => r2f i + (1 - e2) * z2f i - e2 * (a2 - b2)
  let cf : List ℕ → ℝ := fun i => e4 * Ff i * r2f i / Gf i ^ 3
  let sf : List ℕ → ℝ := fun i => (1 + cf i + Real.sqrt (cf i ^ 2 + 2 * cf i)) ^ ((1 : ℝ) / 3)
  let Pf : List ℕ → ℝ := fun i => Ff i / (3 * (sf i + 1 / sf i + 1) ^ 2 * Gf i ^ 2)
  let Qf : List ℕ → ℝ := fun i => Real.sqrt (1 + 2 * e4 * Pf i)
  let Df : List ℕ → ℝ := fun i => 0.5 * a2 * (1 + 1 / Qf i) - Pf i * (1 - e2) * z2f i / (Qf i * (1 + Qf i)) - 0.5 * Pf i * r2f i
  let r0f : List ℕ → ℝ := fun i => -Pf i * e2 * rf i / (1 + Qf i) + Real.sqrt (Df i)
  let Vf : List ℕ → ℝ := fun i => Real.sqrt ((rf i - e2 * r0f i) ^ 2 + (1 - e2) * z2f i)
  have def' : ∀ i, W i → 0 < Gf i ∧ 0 ≤ cf i ∧ 0 < sf i ∧ 0 ≤ 1 + 2 * e4 * Pf i ∧ 0 < Qf i ∧ 0 ≤ Df i ∧ 0 < (rf i - e2 * r0f i) ^ 2 + (1 - e2) * z2f i :=
    fun i hi => geo_defined a b (radius.at i) (theta.at i) hb hab hi.1 hi.2.1 hi.2.2
  have drop : ∀ l, (∀ s ∈ l, s = [] ∨ s ∈ L) → (∀ s ∈ L, s ∈ l) → broadcast l = broadcast L := fun l h1 h2 =>
    broadcast_drop h1 fun s hs => Or.inr (h2 s hs)
  have hr : Elem W L r rf := (Elem.arr radius).mul (((Elem.arr theta).app Coord.radians).app Real.sin)
  have hz : Elem W L z zf := (Elem.arr radius).mul (((Elem.arr theta).app Coord.radians).app Real.cos)
  have hr2 : Elem W L r2 r2f := hr.app (· ^ 2)
  have hz2 : Elem W L z2 z2f := hz.app (· ^ 2)
  have hF : Elem W L F Ff := ((Elem.num (54 * b2)).mul hz2).src (drop _ (by simp only [List.mem_append, List.mem_singleton]; tauto) (by simp only [List.mem_append, List.mem_singleton]; tauto))
  have hG : Elem W L G Gf := ((hr2.add ((Elem.num (1 - e2)).mul hz2)).sub (Elem.num (e2 * (a2 - b2)))).src (drop _ (by simp only [List.mem_append, List.mem_singleton]; tauto) (by simp only [List.mem_append, List.mem_singleton]; tauto))
  have hc : Elem W L c cf := ((((Elem.num e4).mul hF).mul hr2).div (hG.app (· ^ 3)) fun i hi => pow_ne_zero 3 (def' i hi).1.ne').src (drop _ (by simp only [List.mem_append, List.mem_singleton]; tauto) (by simp only [List.mem_append, List.mem_singleton]; tauto))
  have hs : Elem W L s sf := ((((Elem.num 1).add hc).add ((((hc.app (· ^ 2)).add ((Elem.num 2).mul hc)).sqrt fun i hi => by
      have := (def' i hi).2.1
      beta_reduce
      positivity))).cbrt fun i hi => by
      have := (def' i hi).2.1
      beta_reduce
      positivity).src (drop _ (by simp only [List.mem_append, List.mem_singleton]; tauto) (by simp only [List.mem_append, List.mem_singleton]; tauto))
  have hP : Elem W L P Pf := (hF.div (((Elem.num 3).mul ((((hs.add ((Elem.num 1).div hs fun i hi => (def' i hi).2.2.1.ne')).add (Elem.num 1))).app (· ^ 2))).mul (hG.app (· ^ 2)))
      fun i hi => by
      have h1 := (def' i hi).2.2.1
      have h2 := (def' i hi).1
      beta_reduce
      positivity).src (drop _ (by simp only [List.mem_append, List.mem_singleton]; tauto) (by simp only [List.mem_append, List.mem_singleton]; tauto))
  have hQ : Elem W L Q Qf := (((Elem.num 1).add ((Elem.num (2 * e4)).mul hP)).sqrt fun i hi => (def' i hi).2.2.2.1).src (drop _ (by simp only [List.mem_append, List.mem_singleton]; tauto) (by simp only [List.mem_append, List.mem_singleton]; tauto))
  have hD := (((Elem.num (V := W) (0.5 * a2)).mul ((Elem.num 1).add ((Elem.num 1).div hQ fun i hi => (def' i hi).2.2.2.2.1.ne'))).sub
      (((hP.mul (Elem.num (1 - e2))).mul hz2).div (hQ.mul ((Elem.num 1).add hQ)) fun i hi => by
        have := (def' i hi).2.2.2.2.1
        beta_reduce
        positivity)).sub (((Elem.num 0.5).mul hP).mul hr2)
  have hr0 : Elem W L r0 r0f := ((((((hP.app fun x => -x).mul (Elem.num e2)).mul hr).div ((Elem.num 1).add hQ) fun i hi => by
        have := (def' i hi).2.2.2.2.1
        beta_reduce
        positivity)).add (hD.sqrt fun i hi => (def' i hi).2.2.2.2.2.1)).src (drop _ (by simp only [List.mem_append, List.mem_singleton]; tauto) (by simp only [List.mem_append, List.mem_singleton]; tauto))
  have hre := (hr.sub ((Elem.num e2).mul hr0)).app (· ^ 2)
  have hU := (hre.add hz2).sqrt fun i hi => by beta_reduce; exact add_nonneg (sq_nonneg _) (sq_nonneg _)
  have hV : Elem W L V Vf := ((hre.add ((Elem.num (1 - e2)).mul hz2)).sqrt fun i hi => (def' i hi).2.2.2.2.2.2.le).src (drop _ (by simp only [List.mem_append, List.mem_singleton]; tauto) (by simp only [List.mem_append, List.mem_singleton]; tauto))
  have haV := (Elem.num (V := W) a).mul hV
  have hV0 : ∀ i, W i → a * Vf i ≠ 0 := fun i hi => (mul_pos ha (Real.sqrt_pos.2 (def' i hi).2.2.2.2.2.2)).ne'
  have hz0 := ((Elem.num (V := W) b2).mul hz).div haV hV0
  have hH := hU.mul ((Elem.num 1).sub ((Elem.num b2).div haV hV0))
  have hB := (Elem.num (V := W) 90).sub (((hz.add ((Elem.num ep2).mul hz0)).atan2 hr).app Coord.degrees)
  exact ⟨hH.src (drop _ (by simp only [List.mem_append, List.mem_singleton]; tauto) (by simp only [List.mem_append, List.mem_singleton]; tauto)), hB.src (drop _ (by simp only [List.mem_append, List.mem_singleton]; tauto) (by simp only [List.mem_append, List.mem_singleton]; tauto))⟩

/-- **C79** (geocentric to geodetic). The same for `geo_to_gg`: the values are those of the single points, and they are not NaN, wherever the point is
further than `(a² - b²)/b` from the centre - whatever the other points of the arrays are. -/
theorem C79_geo_to_gg (a b : ℝ) (hb : 0 < b) (hab : b ≤ a) (radius theta Br Bt : Arr ℝ) :
    (∀ Br' Bt' : Option (Arr ℝ), Br' = none ∨ Bt' = none → Fits [radius.shape, theta.shape] (geoToGg a b radius theta Br' Bt') fun r =>
      r.components = none ∧ GeoHolds [radius.shape, theta.shape] (Outside a b radius theta) (fun i => (Coord.geoToGg a b (radius.at i) (theta.at i)).1)
        (fun i => (Coord.geoToGg a b (radius.at i) (theta.at i)).2) r) ∧
    Fits [radius.shape, theta.shape, Br.shape, Bt.shape] (geoToGg a b radius theta (some Br) (some Bt)) fun r =>
      GeoHolds [radius.shape, theta.shape] (Outside a b radius theta) (fun i => (Coord.geoToGg a b (radius.at i) (theta.at i)).1)
        (fun i => (Coord.geoToGg a b (radius.at i) (theta.at i)).2) r ∧
      ∃ c, r.components = some c ∧
        Holds [radius.shape, theta.shape, Br.shape, Bt.shape] c.1 (Outside a b radius theta)
          (fun i => (Coord.geoToGgVec a b (radius.at i) (theta.at i) (Br.at i) (Bt.at i)).2.1) ∧
        Holds [radius.shape, theta.shape, Br.shape, Bt.shape] c.2 (Outside a b radius theta)
          (fun i => (Coord.geoToGgVec a b (radius.at i) (theta.at i) (Br.at i) (Bt.at i)).2.2) := by
  obtain ⟨hR, hT⟩ := geo_coords a b hb hab radius theta
  refine ⟨fun X' Z' hXZ => ⟨fun hbr => ?_, fun hn => ?_⟩, fun hbr => ?_, fun hn => ?_⟩
  · obtain ⟨S, hS⟩ := Option.ne_none_iff_exists'.1 hbr
    obtain ⟨t, t1, -, t3, -⟩ := hT.holds hS
    obtain ⟨r, r1, -, r3, -⟩ := hR.holds hS
    refine ⟨⟨r, t, none⟩, ?_, rfl, r3, t3⟩
    unfold geoToGg
    simp only [bind, Except.bind]
    rw [r1]
    simp only
    rw [t1]
    rcases hXZ with rfl | rfl
    · rfl
    · cases X' <;> rfl
  · unfold geoToGg
    simp only [bind, Except.bind]
    rw [hR.2 hn]
  · obtain ⟨S', hS'⟩ := Option.ne_none_iff_exists'.1 hbr
    obtain ⟨S, hS, hSS⟩ := broadcast_of_into (l := [radius.shape, theta.shape]) (G := S') (fun s hs => broadcast_into hS' s (by
      simp only [List.mem_cons, List.not_mem_nil, or_false] at hs ⊢; tauto))
    obtain ⟨t, t1, t2, t3, t4⟩ := hT.holds hS
    obtain ⟨r, r1, -, r3, -⟩ := hR.holds hS
    have hbS : bcast (ofReal theta).shape t.shape = some S := by
      rw [t2, ← bcast_pair]
      rw [broadcast_iff] at hS ⊢
      refine ⟨fun s hs => ?_, fun T hT => hT S (by simp)⟩
      simp only [List.mem_cons, List.not_mem_nil, or_false] at hs
      rcases hs with rfl | rfl
      · exact hS.1 _ (by simp [ofReal, Arr.map])
      · exact into_refl _
    obtain ⟨g1, g2, g3, hg, -, -, -, hk⟩ := (baseGg_elem (V := Outside a b radius theta) (ofReal theta) t theta.at _ (fun _ _ => rfl) t4).1 S hbS
    obtain ⟨X, b1, -, b3, -⟩ := (rotated hS (hk 0).1 (hk 1).1 (Elem.arr Br) (Elem.arr Bt)).holds hS'
    obtain ⟨Z, c1, -, c3, -⟩ := (rotated hS (hk 0).2.2 (hk 1).2.2 (Elem.arr Br) (Elem.arr Bt)).holds hS'
    refine ⟨⟨r, t, some (X, Z)⟩, ?_, ⟨r3, t3⟩, (X, Z), rfl, b3, c3⟩
    unfold geoToGg
    simp only [bind, Except.bind]
    rw [r1]
    simp only
    rw [t1]
    simp only
    rw [hg]
    simp only
    have b1' : (comp g1 0 * arr Br + comp g1 1 * arr Bt).run = .ok X := b1
    have c1' : (comp g3 0 * arr Br + comp g3 1 * arr Bt).run = .ok Z := c1
    rw [b1']
    simp only
    rw [c1']
    rfl
  · cases hS : broadcast [radius.shape, theta.shape] with
    | none =>
      unfold geoToGg
      simp only [bind, Except.bind]
      rw [hR.2 hS]
    | some S =>
      obtain ⟨t, t1, t2, t3, t4⟩ := hT.holds hS
      obtain ⟨r, r1, -, r3, -⟩ := hR.holds hS
      have hbS : bcast (ofReal theta).shape t.shape = some S := by
        rw [t2, ← bcast_pair]
        rw [broadcast_iff] at hS ⊢
        refine ⟨fun s hs => ?_, fun T hT => hT S (by simp)⟩
        simp only [List.mem_cons, List.not_mem_nil, or_false] at hs
        rcases hs with rfl | rfl
        · exact hS.1 _ (by simp [ofReal, Arr.map])
        · exact into_refl _
      obtain ⟨g1, g2, g3, hg, -, -, -, hk⟩ := (baseGg_elem (V := Outside a b radius theta) (ofReal theta) t theta.at _ (fun _ _ => rfl) t4).1 S hbS
      have b1 := (rotated hS (hk 0).1 (hk 1).1 (Elem.arr Br) (Elem.arr Bt)).2 hn
      unfold geoToGg
      simp only [bind, Except.bind]
      rw [r1]
      simp only
      rw [t1]
      simp only
      rw [hg]
      simp only
      have b1' : (comp g1 0 * arr Br + comp g1 1 * arr Bt).run = .error .valueError := b1
      rw [b1']

end ChaosMagPy.ElemArr
