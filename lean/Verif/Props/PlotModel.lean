import Verif.Props.Plot
import Verif.Props.ChaosArr
import Verif.Props.ChaosParts
import Verif.Props.SynthPP
/-!
# Property C68: what the plotting methods of the models draw
-/
namespace ChaosMagPy.Plot
open ChaosMagPy.NumPy
open ChaosMagPy.Chaos
open ChaosMagPy.ChaosArr (Agrees Fit ptAt)
open ChaosMagPy.SynthArr (expandBeforeLast_exists expandBeforeLast_at expandLast_data expandLast_at)
open ChaosMagPy.PPoly (Extrap first last)
open ChaosMagPy.Index (nmaxOfDim)
open ChaosMagPy.Spec
open ChaosMagPy.Synth (Source)

/-- An array of shape `()` or `(1,)` with the given value. -/
def Single (a : Arr ℝ) (x : ℝ) : Prop := (a.shape = [] ∧ a.get [] = x) ∨ (a.shape = [1] ∧ a.get [0] = x)

theorem Single.shape {a : Arr ℝ} {x : ℝ} (h : Single a x) : a.shape = [] ∨ a.shape = [1] := by
  rcases h with h | h
  · exact Or.inl h.1
  · exact Or.inr h.1

theorem Single.at {a : Arr ℝ} {x : ℝ} (h : Single a x) (i : List ℕ) (hi : i ≠ []) : a.at i = x := by
  unfold Arr.at
  rcases h with ⟨h1, h2⟩ | ⟨h1, h2⟩
  · rw [h1, ← h2]; rfl
  · rw [h1, ← h2]
    congr 1
    unfold proj
    obtain ⟨k, l, hk⟩ := List.exists_cons_of_ne_nil (fun h => hi (List.reverse_eq_nil_iff.1 h) : i.reverse ≠ [])
    rw [hk]
    rfl

/-- The grid of the maps: 320 colatitudes from 1 to 179 degrees. -/
noncomputable def gridTheta (j : ℕ) : ℝ := 1 + 178 * j / 319

/-- `M` longitudes from -180 to 180 degrees. -/
noncomputable def gridPhi (M k : ℕ) : ℝ := -180 + 360 * k / ((M : ℝ) - 1)

theorem linspace_length (a b : ℝ) (n : ℕ) : (linspace a b n).length = n := by simp [linspace]

theorem linspace_get (a b : ℝ) (n j : ℕ) (h : j < n) : (linspace a b n).getD j 0 = a + (b - a) * j / ((n : ℝ) - 1) := by
  unfold linspace
  rw [List.getD_eq_getElem?_getD, List.getElem?_map, List.getElem?_range h]
  rfl

theorem theta_get (j : ℕ) (h : j < 320) : (linspace 1 179 320).getD j 0 = gridTheta j := by
  rw [linspace_get _ _ _ _ h]
  unfold gridTheta
  norm_num

theorem phi_get (M k : ℕ) (h : k < M) : (linspace (-180) 180 M).getD k 0 = gridPhi M k := by
  rw [linspace_get _ _ _ _ h]
  unfold gridPhi
  norm_num

theorem theta_range (j : ℕ) (h : j < 320) : 0 ≤ gridTheta j ∧ gridTheta j ≤ 180 := by
  unfold gridTheta
  have h1 : (j : ℝ) ≤ 319 := by exact_mod_cast Nat.le_of_lt_succ h
  have h2 : (0 : ℝ) ≤ j := Nat.cast_nonneg j
  constructor
  · positivity
  · rw [← le_sub_iff_add_le', div_le_iff₀ (by norm_num)]
    nlinarith

theorem valid_pair {N M : ℕ} {i : List ℕ} (h : Valid [N, M] i) : ∃ j < N, ∃ k < M, i = [j, k] := by
  unfold Valid at h
  cases h with
  | cons hj h =>
    cases h with
    | cons hk h =>
      cases h
      exact ⟨_, hj, _, hk, rfl⟩

theorem pair_valid {N M j k : ℕ} (hj : j < N) (hk : k < M) : Valid [N, M] [j, k] := List.Forall₂.cons hj (List.Forall₂.cons hk List.Forall₂.nil)

/-- The shapes of the grid calls. -/
theorem grid_fit (time radius : Arr ℝ) (t r : ℝ) (ht : Single time t) (hr : Single radius r) (th ph : List ℝ) (hN : 0 < th.length) (hM : 0 < ph.length) :
    ∃ theta' phi', Fit (some true) time radius (ofList th) (ofList ph) theta' phi' [th.length, ph.length] [th.length, ph.length] ∧
      ∀ j < th.length, ∀ k < ph.length, ptAt time radius theta' phi' [j, k] = ⟨t, r, th.getD j 0, ph.getD k 0⟩ := by
  obtain ⟨phi', hp⟩ := expandBeforeLast_exists (ofList ph) [] ph.length rfl
  obtain ⟨hs, hv⟩ := expandBeforeLast_at (ofList ph) phi' [] ph.length rfl hp
  have hsc : ∀ a : Arr ℝ, ∀ x, Single a x → ∀ s n : ℕ, bcast a.shape [s, n] = some [s, n] := by
    intro a x ha s n
    rcases ha.shape with h | h
    · rw [h]; simp [bcast, bcastRev]
    · rw [h]
      simp only [bcast, bcastRev, List.reverse_cons, List.reverse_nil, List.nil_append, List.cons_append, Option.bind_some]
      by_cases h1 : 1 = n
      · rw [if_pos h1]; simp [h1]
      · rw [if_neg h1, if_pos trivial]; simp
  have hsc' : ∀ a : Arr ℝ, ∀ x, Single a x → ∀ s n : ℕ, bcast [s, n] a.shape = some [s, n] := by
    intro a x ha s n
    exact bcast_self (bcast_into (hsc a x ha s n)).1
  have hG : broadcast [radius.shape, (expandLast (ofList th)).shape, phi'.shape, time.shape] = some [th.length, ph.length] := by
    rw [hs]
    have h1 : bcast [] radius.shape = some radius.shape := SynthArr.bcast_nil_left _
    have h2 := hsc radius r hr th.length 1
    have h3 := SynthArr.bcast_outer th.length ph.length
    have h4 := hsc' time t ht th.length ph.length
    simp only [broadcast, List.foldlM_cons, List.foldlM_nil, bind, Option.bind_some, pure, h1, expandLast, ofList, List.nil_append, List.cons_append, h2, h3, h4]
  refine ⟨expandLast (ofList th), phi', ⟨?_, expandLast_data _, hG, into_refl _, by simp; omega⟩, ?_⟩
  · unfold SynthArr.gridded
    rw [hp]
    rfl
  · intro j hj k hk
    have e1 : (expandLast (ofList th)).at [j, k] = th.getD j 0 := by
      rw [show ([j, k] : List ℕ) = [j] ++ [k] from rfl, expandLast_at, at_valid _ _ (show Valid [th.length] [j] from List.Forall₂.cons hj List.Forall₂.nil)]
      rfl
    have e2 : phi'.at [j, k] = ph.getD k 0 := by
      have := hv [] j k
      simp only [List.nil_append] at this
      rw [this, at_valid _ _ (show Valid [ph.length] [k] from List.Forall₂.cons hk List.Forall₂.nil)]
      rfl
    unfold ptAt
    rw [ht.at _ (by simp), hr.at _ (by simp), e1, e2]

theorem coeffs_replicate (b : PPoly.Base) (n : ℕ) (t : ℝ) (deriv : Option ℕ) (e : Option Extrap) (k : ℕ) (v : Option (ℕ → ℝ))
    (h : PPoly.modelSynthCoeffs b [t] none deriv e = .ok (k, [v])) :
    PPoly.modelSynthCoeffs b (List.replicate (n + 1) t) none deriv e = .ok (k, List.replicate (n + 1) v) := by
  unfold PPoly.modelSynthCoeffs at h ⊢
  exact synth_replicate b n t _ _ _ _ _ h

theorem coeffs_deriv (b : PPoly.Base) (ts : List ℝ) (n deriv : Option ℕ) (e : Option Extrap) :
    PPoly.modelSynthCoeffs b ts n (some (deriv.getD 0)) e = PPoly.modelSynthCoeffs b ts n deriv e := by
  cases deriv <;> rfl

/-- The field of a model at one time on a grid. -/
theorem grid_model (a : ℝ) (ha : 0 < a) (m : Model) (src : Source) (hsrc : m.source = src.name) (N : ℕ) (hdim : m.base.dim = N * (N + 2)) (hN : 1 ≤ N)
    (time radius : Arr ℝ) (t r : ℝ) (ht : Single time t) (hr : Single radius r) (hr0 : 0 < r) (nmax : Option ℕ) (h0 : nmax ≠ some 0) (deriv : Option ℕ)
    (e : Option Extrap) (k : ℕ) (v : ℕ → ℝ) (h : PPoly.modelSynthCoeffs m.base [t] none deriv e = .ok (k, [some v]))
    (th ph : List ℝ) (hth0 : 0 < th.length) (hph0 : 0 < ph.length) (hth : ∀ j < th.length, 0 ≤ th.getD j 0 ∧ th.getD j 0 ≤ 180) :
    ∃ (B : Arr Val) (b : ℕ → ℕ → ℝ × ℝ × ℝ), ChaosArr.modelValues a m time radius (ofList th) (ofList ph) nmax deriv e (some true) = .ok B ∧
      B.shape = [th.length, ph.length] ∧ ∀ j < th.length, ∀ l < ph.length, B.get [j, l] = some (b j l) ∧
        MinusGradient src a v (usedDegree N nmax) ⟨t, r, th.getD j 0, ph.getD l 0⟩ (b j l) := by
  obtain ⟨theta', phi', F, hpt⟩ := grid_fit time radius t r ht hr th ph hth0 hph0
  have hag := ChaosArr.modelValues_agrees F a m nmax deriv e
  unfold ChaosArr.Agrees at hag
  generalize hI : indices [th.length, ph.length] = I at hag
  have hmem : ∀ i ∈ I, ∃ j < th.length, ∃ l < ph.length, i = [j, l] := by
    intro i hi
    rw [← hI] at hi
    exact valid_pair (mem_indices.1 hi)
  have hne : I ≠ [] := by
    rw [← hI]
    exact indices_ne_nil F.pos
  set pts := I.map (ptAt time radius theta' phi') with hpts
  have hvalid : ∀ p ∈ pts, p.Valid := by
    intro p hp
    obtain ⟨i, hi, rfl⟩ := List.mem_map.1 hp
    obtain ⟨j, hj, l, hl, rfl⟩ := hmem i hi
    rw [hpt j hj l hl]
    exact ⟨(hth j hj).1, (hth j hj).2, hr0⟩
  obtain ⟨n, hn⟩ : ∃ n, I.length = n + 1 := Nat.exists_eq_succ_of_ne_zero (fun h => hne (List.length_eq_zero_iff.1 h))
  have htimes : pts.map Pt.time = List.replicate (n + 1) t := by
    rw [List.eq_replicate_iff]
    refine ⟨by simp [hpts, hn], ?_⟩
    intro x hx
    obtain ⟨p, hp, rfl⟩ := List.mem_map.1 hx
    obtain ⟨i, hi, rfl⟩ := List.mem_map.1 hp
    obtain ⟨j, hj, l, hl, rfl⟩ := hmem i hi
    rw [hpt j hj l hl]
  have hrows := coeffs_replicate m.base n t deriv e k (some v) h
  obtain ⟨L, hL, hlen, hval⟩ := C56_model a ha m src hsrc N hdim hN pts (by simpa [hpts] using hne) hvalid nmax h0 deriv e k _ (by rw [htimes]; exact hrows)
  rcases hag with ⟨err, _, h2⟩ | ⟨B, h1, h2, h3⟩
  · rw [hL] at h2; cases h2
  · have hLB : L = I.map B.at := by
      rw [hL] at h3
      exact Except.ok.inj h3
    have hex : ∀ j l, ∃ b, j < th.length → l < ph.length → B.get [j, l] = some b ∧
        MinusGradient src a v (usedDegree N nmax) ⟨t, r, th.getD j 0, ph.getD l 0⟩ b := by
      intro j l
      by_cases hjl : j < th.length ∧ l < ph.length
      · obtain ⟨hj, hl⟩ := hjl
        have hin : [j, l] ∈ I := by
          rw [← hI]
          exact mem_indices.2 (pair_valid hj hl)
        obtain ⟨q, hq, hqe⟩ := List.getElem_of_mem hin
        have hp : pts[q]? = some (ptAt time radius theta' phi' [j, l]) := by
          rw [hpts, List.getElem?_map, List.getElem?_eq_getElem hq, hqe]; rfl
        have hBq : L[q]? = some (B.at [j, l]) := by
          rw [hLB, List.getElem?_map, List.getElem?_eq_getElem hq, hqe]; rfl
        have hBat : B.at [j, l] = B.get [j, l] := at_valid _ _ (by rw [h2]; exact pair_valid hj hl)
        rcases hval q _ hp with ⟨g1, _⟩ | ⟨v', b, g1, g2, g3⟩
        · rw [List.getElem?_replicate] at g1
          split_ifs at g1
          simp at g1
        · rw [List.getElem?_replicate] at g1
          split_ifs at g1
          simp only [Option.some.injEq] at g1
          subst g1
          rw [hBq, Option.some.injEq, hBat] at g2
          rw [hpt j hj l hl] at g3
          exact ⟨b, fun _ _ => ⟨g2, g3⟩⟩
      · exact ⟨(0, 0, 0), fun h1 h2 => absurd ⟨h1, h2⟩ hjl⟩
    choose b hb using hex
    exact ⟨B, b, h1, h2, fun j hj l hl => hb j l hj hl⟩

/-- The component that belongs to the subplot of number `i`: radial, colatitude, longitude. -/
def component (i : ℕ) (b : ℝ × ℝ × ℝ) : ℝ := if i = 0 then b.1 else if i = 1 then b.2.1 else b.2.2

theorem comps_get (B : Arr Val) (i : ℕ) (c : Comp) (h : (comps B)[i]? = some c) :
    i < 3 ∧ c.shape = B.shape ∧ ∀ idx b, B.get idx = some b → c.get idx = some (component i b) := by
  unfold comps at h
  match i with
  | 0 => simp only [List.getElem?_cons_zero, Option.some.injEq] at h; subst h; exact ⟨by omega, rfl, fun idx b hb => by simp [component, hb]⟩
  | 1 => simp only [List.getElem?_cons_zero, List.getElem?_cons_succ, Option.some.injEq] at h; subst h; exact ⟨by omega, rfl, fun idx b hb => by simp [component, hb]⟩
  | 2 => simp only [List.getElem?_cons_zero, List.getElem?_cons_succ, Option.some.injEq] at h; subst h; exact ⟨by omega, rfl, fun idx b hb => by simp [component, hb]⟩
  | n + 3 => simp at h

/-- The three titles of maps: the component and, in parentheses, what is shown. -/
def shownTitles (what : String) : List String := ["$B_r$ (" ++ what ++ ")", "$B_\\theta$ (" ++ what ++ ")", "$B_\\phi$ (" ++ what ++ ")"]

theorem mapTitles_eq (n d : ℕ) : mapTitles n d = shownTitles ("$n\\leq" ++ toString n ++ "$, deriv=" ++ toString d) := by
  have h : ∀ a : String, (a ++ "(" ++ ("$n\\leq" ++ toString n ++ "$, deriv=" ++ toString d) ++ ")") = (a ++ "($n\\leq" ++ toString n ++ "$, deriv=" ++ toString d ++ ")") := by
    intro a
    have h1 : ("(" : String) ++ "$n\\leq" = "($n\\leq" := by decide
    rw [← h1]
    simp only [String.append_assoc]
  have e1 := h "$B_r$ "
  have e2 := h "$B_\\theta$ "
  have e3 := h "$B_\\phi$ "
  unfold mapTitles shownTitles
  exact congrArg₂ List.cons e1.symm (congrArg₂ List.cons e2.symm (congrArg₂ List.cons e3.symm rfl))

theorem externalTitles_eq (R S : String) :
    externalTitles R S = shownTitles (if R = "all" then S ++ " sources" else R.toUpper ++ " " ++ S ++ " sources") := by
  have h1 : (" sources" : String) ++ ")" = " sources)" := by decide
  unfold externalTitles shownTitles
  split_ifs
  · have h : ∀ a : String, a ++ S ++ " sources)" = a ++ (S ++ " sources") ++ ")" := by
      intro a
      rw [← h1]
      simp only [String.append_assoc]
    exact congrArg₂ List.cons (h _) (congrArg₂ List.cons (h _) (congrArg₂ List.cons (h _) rfl))
  · have h : ∀ a : String, a ++ R.toUpper ++ " " ++ S ++ " sources)" = a ++ (R.toUpper ++ " " ++ S ++ " sources") ++ ")" := by
      intro a
      rw [← h1]
      simp only [String.append_assoc]
    exact congrArg₂ List.cons (h _) (congrArg₂ List.cons (h _) (congrArg₂ List.cons (h _) rfl))

/-- A figure with the three components of a field on a grid, below each other, for the given keywords of the limits. -/
structure FieldMaps (M : ℕ) (b : ℕ → ℕ → ℝ × ℝ × ℝ) (titles : List String) (label : String) (vmin vmax : Kw Limit) (P : List MapPanel) : Prop where
  length : P.length = 3
  panel : ∀ (i : ℕ) (p : MapPanel), P[i]? = some p → p.row = i ∧ p.col = 0 ∧ p.label = label ∧ titles[i]? = some p.title ∧
    p.lat.length = 320 ∧ p.lon.length = M ∧ p.values.shape = [320, M] ∧
    ∀ j < 320, ∀ k < M, p.lat[j]? = some ((90 - gridTheta j) * Real.pi / 180) ∧ p.lon[k]? = some (gridPhi M k * Real.pi / 180) ∧
      p.values.get [j, k] = some (component i (b j k))
  limits : ∃ G : ℝ, IsGreatest {y | ∃ j < 320, ∃ k < M, y = |(b j k).1|} G ∧ ∀ p ∈ P, p.vmax = shownLimit vmax (.num G) ∧ p.vmin = shownLimit vmin (.num (-G))

/-- The figure of `plot_maps` for an array of vectors. -/
theorem field_maps (M : ℕ) (hM : 0 < M) (B : Arr Val) (b : ℕ → ℕ → ℝ × ℝ × ℝ) (hs : B.shape = [320, M]) (hB : ∀ j < 320, ∀ k < M, B.get [j, k] = some (b j k))
    (kw : MapKw) (h1 : kw.layout = none) (h2 : kw.limiter = none) (T : List String) (hT : kw.titles = some (some T)) (hT3 : T.length = 3) :
    ∃ P, plotMaps (linspace 1 179 320) (linspace (-180) 180 M) (comps B) kw = .ok P ∧ FieldMaps M b T (kw.label.default "") kw.vmin kw.vmax P := by
  have hcl : (comps B).length = 3 := rfl
  have hcomp : ∀ i c, (comps B)[i]? = some c → c.shape = [320, M] ∧ ∀ j < 320, ∀ k < M, c.get [j, k] = some (component i (b j k)) := by
    intro i c hc
    obtain ⟨_, e2, e3⟩ := comps_get B i c hc
    exact ⟨by rw [e2, hs], fun j hj k hk => e3 _ _ (hB j hj k hk)⟩
  have hmem : ∀ c ∈ comps B, ∃ i, (comps B)[i]? = some c := fun c hc => List.getElem?_of_mem hc
  have hmax : ∀ i c, (comps B)[i]? = some c → ∃ G : ℝ, maxAbs c = .ok (.num G) ∧ IsGreatest {y | ∃ j < 320, ∃ k < M, y = |component i (b j k)|} G := by
    intro i c hc
    obtain ⟨e1, e2⟩ := hcomp i c hc
    obtain ⟨G, g1, g2⟩ := C67_limits c ⟨[0, 0], by rw [e1]; exact pair_valid (by norm_num) hM⟩ (by
      intro idx hidx
      rw [e1] at hidx
      obtain ⟨j, hj, k, hk, rfl⟩ := valid_pair hidx
      exact ⟨_, e2 j hj k hk⟩)
    refine ⟨G, g1, ?_⟩
    have hset : {y | ∃ idx x, Valid c.shape idx ∧ c.get idx = some x ∧ y = |x|} = {y | ∃ j < 320, ∃ k < M, y = |component i (b j k)|} := by
      ext y
      constructor
      · rintro ⟨idx, x, f1, f2, rfl⟩
        rw [e1] at f1
        obtain ⟨j, hj, k, hk, rfl⟩ := valid_pair f1
        rw [e2 j hj k hk, Option.some.injEq] at f2
        exact ⟨j, hj, k, hk, by rw [f2]⟩
      · rintro ⟨j, hj, k, hk, rfl⟩
        exact ⟨[j, k], _, by rw [e1]; exact pair_valid hj hk, e2 j hj k hk, rfl⟩
    rwa [hset] at g2
  obtain ⟨c0, cs, hcc⟩ : ∃ c0 cs, comps B = c0 :: cs := ⟨_, _, rfl⟩
  obtain ⟨P, lim, p1, p2, p3, p4⟩ := C67_maps (linspace 1 179 320) (linspace (-180) 180 M) c0 cs kw 3 1
    (Or.inr ⟨h1, by rw [← hcc, hcl], rfl⟩) (by rw [← hcc, hcl]) T (Or.inl hT)
    (by
      intro c hc
      rw [← hcc] at hc
      obtain ⟨i, hi⟩ := hmem c hc
      rw [linspace_length, linspace_length]
      exact (hcomp i c hi).1)
    (by
      intro c hc
      rw [← hcc] at hc
      obtain ⟨i, hi⟩ := hmem c hc
      obtain ⟨G, g1, _⟩ := hmax i c hi
      exact ⟨_, by rw [h2]; exact g1⟩)
  rw [← hcc] at p1 p3 p4
  refine ⟨P, p1, ?_, ?_, ?_⟩
  · rw [p3, hcl, hT3]; rfl
  · intro i p hp
    obtain ⟨⟨c, title, q1, q2, q3⟩, _, _, q6⟩ := p4 i p hp
    obtain ⟨r1, r2⟩ := hcomp i c q1
    have hpl := q3.place
    refine ⟨by omega, by omega, q6, by rw [q3.title]; exact q2, ?_, ?_, by rw [q3.values]; exact r1, ?_⟩
    · rw [q3.lat, List.length_map, linspace_length]
    · rw [q3.lon, List.length_map, linspace_length]
    · intro j hj k hk
      refine ⟨?_, ?_, by rw [q3.values]; exact r2 j hj k hk⟩
      · have hjl : j < (linspace 1 179 320).length := by rw [linspace_length]; exact hj
        have := theta_get j hj
        rw [List.getD_eq_getElem _ _ hjl] at this
        rw [q3.lat, List.getElem?_map, List.getElem?_eq_getElem hjl, this]
        rfl
      · have hkl : k < (linspace (-180) 180 M).length := by rw [linspace_length]; exact hk
        have := phi_get M k hk
        rw [List.getD_eq_getElem _ _ hkl] at this
        rw [q3.lon, List.getElem?_map, List.getElem?_eq_getElem hkl, this]
        rfl
  · have hc0 : (comps B)[0]? = some c0 := by rw [hcc]; rfl
    obtain ⟨G, g1, g2⟩ := hmax 0 c0 hc0
    have hlim : lim = .num G := by
      rw [h2] at p2
      exact Except.ok.inj (p2.symm.trans g1)
    refine ⟨G, ?_, ?_⟩
    · simpa only [component, if_pos] using g2
    · intro p hp
      obtain ⟨i, hi⟩ := List.getElem?_of_mem hp
      obtain ⟨_, q4, q5, _⟩ := p4 i p hi
      rw [hlim] at q4 q5
      exact ⟨q4, q5⟩

/-- **C68 (maps of a model).** `plot_maps` of a potential field model draws, below each other, the radial, colatitude and longitude components of minus
the gradient of the potential of the coefficients (or their time derivative) at the time, at 320 x 640 points of the sphere of the radius, each at its
latitude and longitude; the coefficients are used up to the smaller of `nmax` and the degree of the model. Limits that are not given are plus and minus
the greatest radial component for all three maps. The titles show the value of `nmax` even if it is greater than the degree of the model. -/
theorem C68_maps (a : ℝ) (ha : 0 < a) (m : Model) (src : Source) (hsrc : m.source = src.name) (N : ℕ) (hdim : m.base.dim = N * (N + 2)) (hN : 1 ≤ N)
    (time radius : Arr ℝ) (t r : ℝ) (ht : Single time t) (hr : Single radius r) (hr0 : 0 < r) (nmax : Option ℕ) (h0 : nmax ≠ some 0) (deriv : Option ℕ)
    (k : ℕ) (v : ℕ → ℝ) (h : PPoly.modelSynthCoeffs m.base [t] none deriv none = .ok (k, [some v]))
    (kw : MapKw) (h1 : kw.layout = none) (h2 : kw.limiter = none) (h3 : kw.titles = none) (h4 : kw.label = none) :
    ∃ (P : List MapPanel) (b : ℕ → ℕ → ℝ × ℝ × ℝ), modelPlotMaps a m time radius nmax deriv kw = .ok P ∧
      (∀ j < 320, ∀ l < 640, MinusGradient src a v (usedDegree N nmax) ⟨t, r, gridTheta j, gridPhi 640 l⟩ (b j l)) ∧
      FieldMaps 640 b (shownTitles ("$n\\leq" ++ toString (nmax.getD N) ++ "$, deriv=" ++ toString (deriv.getD 0))) (gaussUnits (some (deriv.getD 0))) kw.vmin kw.vmax P := by
  rw [← mapTitles_eq]
  have hdeg : (nmaxOfDim m.base.dim).toNat = N := by rw [hdim, nmax_dim]
  have hNd : (if nmax.getD N > N then N else nmax.getD N) ≠ 0 := by
    have : nmax.getD N ≠ 0 := by
      cases nmax with
      | none => simp only [Option.getD_none]; omega
      | some n => exact fun h => h0 (by rw [← h]; rfl)
    split_ifs <;> omega
  obtain ⟨B, b, e1, e2, e3⟩ := grid_model a ha m src hsrc N hdim hN time radius t r ht hr hr0 (some (if nmax.getD N > N then N else nmax.getD N))
    (fun h => hNd (Option.some.inj h)) (some (deriv.getD 0)) none k v (by rw [coeffs_deriv]; exact h) (linspace 1 179 320) (linspace (-180) 180 640)
    (by rw [linspace_length]; norm_num) (by rw [linspace_length]; norm_num)
    (by intro j hj; rw [linspace_length] at hj; rw [theta_get j hj]; exact theta_range j hj)
  rw [linspace_length, linspace_length] at e2 e3
  have hu : usedDegree N (some (if nmax.getD N > N then N else nmax.getD N)) = usedDegree N nmax := by
    unfold usedDegree
    cases nmax with
    | none => simp
    | some n => simp only [Option.getD_some]; split_ifs <;> omega
  rw [hu] at e3
  obtain ⟨P, p1, p2⟩ := field_maps 640 (by norm_num) B b e2 (fun j hj l hl => (e3 j hj l hl).1)
    { kw with label := kw.label.setdefault (gaussUnits (some (deriv.getD 0))), titles := kw.titles.setdefault (mapTitles (nmax.getD N) (deriv.getD 0)) }
    h1 h2 (mapTitles (nmax.getD N) (deriv.getD 0)) (by simp only [h3]; rfl) rfl
  refine ⟨P, b, ?_, ?_, ?_⟩
  · unfold modelPlotMaps
    simp only [hdeg]
    rw [e1]
    exact p1
  · intro j hj l hl
    have := (e3 j hj l hl).2
    rwa [theta_get j hj, phi_get 640 l hl] at this
  · simp only [h4] at p2
    exact p2

/-- **C68 (parts of CHAOS).** The maps and time series of the time-dependent part are those of its model, the maps of the static part are drawn for the
(single) value of its coefficients with the limits -200 and 200 unless given; missing parts raise ValueError. -/
theorem C68_static (env : Env) (ha : 0 < env.rSurf) (c : Chaos) (m : Model) (hm : c.static = some m) (src : Source) (hsrc : m.source = src.name) (N : ℕ)
    (hdim : m.base.dim = N * (N + 2)) (hN : 1 ≤ N) (radius : Arr ℝ) (r : ℝ) (hr : Single radius r) (hr0 : 0 < r) (nmax : Option ℕ) (h0 : nmax ≠ some 0)
    (k : ℕ) (v : ℕ → ℝ) (h : synthCoeffsStatic c none none none = .ok (k, [some v])) (kw : MapKw) (hk : kw.vmax = none ∧ kw.vmin = none)
    (h1 : kw.layout = none) (h2 : kw.limiter = none) (h3 : kw.titles = none) (h4 : kw.label = none) :
    ∃ (P : List MapPanel) (b : ℕ → ℕ → ℝ × ℝ × ℝ), plotMapsStatic env c radius nmax none kw = .ok P ∧
      (∀ j < 320, ∀ l < 640, MinusGradient src env.rSurf v (usedDegree N nmax) ⟨first m.base.breaks, r, gridTheta j, gridPhi 640 l⟩ (b j l)) ∧
      FieldMaps 640 b (shownTitles ("$n\\leq" ++ toString (nmax.getD N) ++ "$, deriv=" ++ "0")) "nT" (some (some (.num (-200)))) (some (some (.num 200))) P ∧
      ∀ p ∈ P, p.vmax = .num 200 ∧ p.vmin = .num (-200) := by
  unfold synthCoeffsStatic at h
  rw [hm] at h
  have hc := (ofPPoly_ok _ _).1 h
  obtain ⟨P, b, e1, e2, e3⟩ := C68_maps env.rSurf ha m src hsrc N hdim hN (scalar (first m.base.breaks)) radius (first m.base.breaks) r (Or.inl ⟨rfl, rfl⟩) hr hr0
    nmax h0 (some 0) k v (by
      rw [← hc]
      exact coeffs_deriv m.base _ none none none)
    { kw with vmax := some (some (kw.vmax.default (.num 200))), vmin := some (some (kw.vmin.default (.num (-200)))) } h1 h2 h3 h4
  rw [hk.1, hk.2] at e1 e3
  refine ⟨P, b, ?_, e2, e3, ?_⟩
  · unfold plotMapsStatic
    rw [hm]
    simp only [hk]
    exact e1
  · obtain ⟨G, _, hG⟩ := e3.limits
    exact hG

/-- **C68 (missing parts).** -/
theorem C68_missing (env : Env) (c : Chaos) (time radius theta phi : Arr ℝ) (nmax deriv : Option ℕ) (e : Option Extrap) (kw : MapKw) (kt : TimeKw) :
    (c.tdep = none → plotMapsTdep env c time radius nmax deriv kw = .error .valueError ∧
      plotTimeseriesTdep env c radius theta phi nmax deriv e kt = .error .valueError) ∧
    (c.static = none → plotMapsStatic env c radius nmax deriv kw = .error .valueError) ∧
    ∀ m, c.tdep = some m → plotMapsTdep env c time radius nmax deriv kw = modelPlotMaps env.rSurf m time radius nmax deriv kw ∧
      plotTimeseriesTdep env c radius theta phi nmax deriv e kt = modelPlotTimeseries env.rSurf m radius theta phi nmax deriv e kt := by
  unfold plotMapsTdep plotTimeseriesTdep plotMapsStatic
  refine ⟨fun h => ?_, fun h => ?_, fun m h => ?_⟩
  · rw [h]; exact ⟨rfl, rfl⟩
  · rw [h]
  · rw [h]; exact ⟨rfl, rfl⟩

theorem valid_one {N : ℕ} {i : List ℕ} (h : Valid [N] i) : ∃ j < N, i = [j] := by
  unfold Valid at h
  cases h with
  | cons hj h => cases h; exact ⟨_, hj, rfl⟩

/-- The times of `plot_timeseries`: 500 equidistant times from the first to the last break point. -/
noncomputable def seriesTime (x : List ℝ) (i : ℕ) : ℝ := first x + (last x - first x) * i / 499

/-- **C68 (time series of a model).** `plot_timeseries` of a potential field model draws the three components at one place for 500 equidistant times of the
model interval against the dates of these times: at each time minus the gradient of the potential with the coefficients at this time (or their
derivative), and gaps where there are no coefficients. -/
theorem C68_timeseries (a : ℝ) (ha : 0 < a) (m : Model) (src : Source) (hsrc : m.source = src.name) (N : ℕ) (hdim : m.base.dim = N * (N + 2)) (hN : 1 ≤ N)
    (radius theta phi : Arr ℝ) (r θ φ : ℝ) (hr : Single radius r) (hθ : Single theta θ) (hφ : Single phi φ) (hr0 : 0 < r) (hθ0 : 0 ≤ θ ∧ θ ≤ 180)
    (nmax : Option ℕ) (h0 : nmax ≠ some 0) (deriv : Option ℕ) (e : Option Extrap) (k : ℕ) (rows : List (Option (ℕ → ℝ)))
    (h : PPoly.modelSynthCoeffs m.base ((List.range 500).map (seriesTime m.base.breaks)) none deriv e = .ok (k, rows)) (kw : TimeKw) (h1 : kw.layout = none)
    (h2 : kw.titles = none) :
    ∃ P, modelPlotTimeseries a m radius theta phi nmax deriv e kw = .ok P ∧ P.length = 3 ∧
      ∀ (i : ℕ) (p : TimePanel), P[i]? = some p → p.row = i ∧ p.col = 0 ∧ ["$B_r$", "$B_\\theta$", "$B_\\phi$"][i]? = some p.title ∧
        (kw.ylabel = none → p.label = gaussUnits (some (deriv.getD 0))) ∧
        p.dates = (List.range 500).map (fun j => Time.timestamp (seriesTime m.base.breaks j)) ∧ p.values.shape = [500] ∧
        ∀ j < 500, (rows[j]? = some none ∧ p.values.get [j] = none) ∨ ∃ v b, rows[j]? = some (some v) ∧ p.values.get [j] = some (component i b) ∧
          MinusGradient src a v (usedDegree N nmax) ⟨seriesTime m.base.breaks j, r, θ, φ⟩ b := by
  have hdeg : (nmaxOfDim m.base.dim).toNat = N := by rw [hdim, nmax_dim]
  have htl : linspace (first m.base.breaks) (last m.base.breaks) 500 = (List.range 500).map (seriesTime m.base.breaks) := by
    unfold linspace seriesTime
    apply List.map_congr_left
    intro i _
    norm_num
  generalize hn : (500 : ℕ) = n at *
  have hn0 : 0 < n := by omega
  set times := (List.range n).map (seriesTime m.base.breaks) with htimes
  have hlen : times.length = n := by simp [htimes]
  have hsc : ∀ (x : Arr ℝ) (y : ℝ), Single x y → bcast [n] x.shape = some [n] := by
    intro x y hx
    rcases hx.shape with h | h
    · rw [h]; simp [bcast, bcastRev]
    · rw [h]
      simp only [bcast, bcastRev, List.reverse_cons, List.reverse_nil, List.nil_append, Option.bind_some]
      by_cases h1 : n = 1
      · rw [if_pos h1]; simp
      · rw [if_neg h1, if_neg h1, if_pos trivial]; simp
  have hG : broadcast [(ofList times).shape, radius.shape, theta.shape, phi.shape] = some [n] := by
    have e1 := hsc radius r hr
    have e2 := hsc theta θ hθ
    have e3 := hsc phi φ hφ
    have e4 : bcast [] [n] = some [n] := SynthArr.bcast_nil_left _
    simp only [broadcast, List.foldlM_cons, List.foldlM_nil, bind, Option.bind_some, pure, ofList, hlen, e1, e2, e3, e4]
  have F := ChaosArr.fit_none (ofList times) radius theta phi [n] hG (by simp; omega)
  have hag := ChaosArr.modelValues_agrees F a m (some (nmax.getD N)) (some (deriv.getD 0)) e
  unfold ChaosArr.Agrees at hag
  have hidx : indices [n] = (List.range n).map fun j => [j] := by
    simp only [indices, List.map_cons, List.map_nil]
    induction List.range n with
    | nil => rfl
    | cons x l ih => rw [List.flatMap_cons, ih]; rfl
  rw [hidx] at hag
  simp only [List.map_map, Function.comp_def] at hag
  have hpt : ∀ j < n, ptAt (ofList times) radius theta phi [j] = ⟨seriesTime m.base.breaks j, r, θ, φ⟩ := by
    intro j hj
    unfold ptAt
    rw [hr.at _ (by simp), hθ.at _ (by simp), hφ.at _ (by simp),
      at_valid _ _ (show Valid [times.length] [j] from List.Forall₂.cons (by rw [hlen]; exact hj) List.Forall₂.nil)]
    congr 1
    show times.getD j 0 = _
    rw [htimes, List.getD_eq_getElem?_getD, List.getElem?_map, List.getElem?_range hj]
    rfl
  have hpts : ((List.range n).map fun j => ptAt (ofList times) radius theta phi [j]) = (List.range n).map fun j => (⟨seriesTime m.base.breaks j, r, θ, φ⟩ : Pt) := by
    apply List.map_congr_left
    intro j hj
    exact hpt j (List.mem_range.1 hj)
  rw [hpts] at hag
  have hnm : some (nmax.getD N) ≠ some 0 := by
    cases nmax with
    | none => simp only [Option.getD_none, ne_eq, Option.some.injEq]; omega
    | some n => exact h0
  have hu : usedDegree N (some (nmax.getD N)) = usedDegree N nmax := by
    unfold usedDegree
    cases nmax with
    | none => simp
    | some n => simp
  obtain ⟨L, hL, hLlen, hval⟩ := C56_model a ha m src hsrc N hdim hN ((List.range n).map fun j => (⟨seriesTime m.base.breaks j, r, θ, φ⟩ : Pt))
    (by simp only [ne_eq, List.map_eq_nil_iff, List.range_eq_nil]; omega)
    (by
      intro p hp
      obtain ⟨j, _, rfl⟩ := List.mem_map.1 hp
      exact ⟨hθ0.1, hθ0.2, hr0⟩) (some (nmax.getD N)) hnm (some (deriv.getD 0)) e k rows (by
        rw [coeffs_deriv, List.map_map]
        exact h)
  rw [hu] at hval
  rcases hag with ⟨err, _, g2⟩ | ⟨B, g1, g2, g3⟩
  · rw [hL] at g2; cases g2
  · have hLB : L = (List.range n).map fun j => B.at [j] := Except.ok.inj (hL.symm.trans g3)
    have hcell : ∀ j < n, (rows[j]? = some none ∧ B.get [j] = none) ∨ ∃ v b, rows[j]? = some (some v) ∧ B.get [j] = some b ∧
        MinusGradient src a v (usedDegree N nmax) ⟨seriesTime m.base.breaks j, r, θ, φ⟩ b := by
      intro j hj
      have hp : ((List.range n).map fun j => (⟨seriesTime m.base.breaks j, r, θ, φ⟩ : Pt))[j]? = some ⟨seriesTime m.base.breaks j, r, θ, φ⟩ := by
        rw [List.getElem?_map, List.getElem?_range hj]; rfl
      have hB : L[j]? = some (B.get [j]) := by
        rw [hLB, List.getElem?_map, List.getElem?_range hj, Option.map_some, at_valid _ _ (by rw [g2]; exact List.Forall₂.cons hj List.Forall₂.nil)]
      rcases hval j _ hp with ⟨f1, f2⟩ | ⟨v, b, f1, f2, f3⟩
      · exact Or.inl ⟨f1, Option.some.inj (hB.symm.trans f2)⟩
      · exact Or.inr ⟨v, b, f1, Option.some.inj (hB.symm.trans f2), f3⟩
    obtain ⟨P, p1, p2, p3⟩ := C67_timeseries times (comps B)
      { kw with titles := some (some (kw.titles.default ["$B_r$", "$B_\\theta$", "$B_\\phi$"])), ylabel := kw.ylabel.setdefault (gaussUnits (some (deriv.getD 0))) }
      3 1 (Or.inr ⟨h1, rfl, rfl⟩) rfl (by simp [comps]) ["$B_r$", "$B_\\theta$", "$B_\\phi$"] (Or.inl (by simp only [h2]; rfl))
      (by
        intro c hc
        obtain ⟨i, hi⟩ := List.getElem?_of_mem hc
        left
        rw [(comps_get B i c hi).2.1, g2, hlen])
    refine ⟨P, ?_, p2, ?_⟩
    · unfold modelPlotTimeseries
      simp only [hdeg, hn, htl]
      rw [g1]
      exact p1
    · intro i p hp
      obtain ⟨q1, q2, q3, q4, q5, q6⟩ := p3 i p hp
      obtain ⟨c1, c2, c3⟩ := comps_get B i p.values q1
      refine ⟨by omega, by omega, q2, ?_, ?_, by rw [c2, g2], ?_⟩
      · intro hy
        rw [q6, hy]
        rfl
      · rw [q5, htimes, List.map_map]
        rfl
      · intro j hj
        rcases hcell j hj with ⟨f1, f2⟩ | ⟨v, b, f1, f2, f3⟩
        · refine Or.inl ⟨f1, ?_⟩
          have : ∀ (i : ℕ) (c : Comp), (comps B)[i]? = some c → c.get [j] = none := by
            intro i c hc
            unfold comps at hc
            match i with
            | 0 => simp only [List.getElem?_cons_zero, Option.some.injEq] at hc; subst hc; simp [f2]
            | 1 => simp only [List.getElem?_cons_zero, List.getElem?_cons_succ, Option.some.injEq] at hc; subst hc; simp [f2]
            | 2 => simp only [List.getElem?_cons_zero, List.getElem?_cons_succ, Option.some.injEq] at hc; subst hc; simp [f2]
            | n + 3 => simp at hc
          exact this i _ q1
        · exact Or.inr ⟨v, b, f1, c3 _ _ f2, f3⟩

/-- **C68 (power spectrum of a model).** The curve has at each degree up to the smaller of `nmax` and the degree of the model the power of this degree
of the coefficients at the time, with gaps where it vanishes. -/
theorem C68_spectrum (a : ℝ) (ha : 0 < a) (m : Model) (hsrc : m.source = "internal" ∨ m.source = "external" ∨ m.source = "toroidal") (N : ℕ)
    (hdim : m.base.dim = N * (N + 2)) (t : ℝ) (radius : Option ℝ) (hr : radius ≠ some 0) (nmax deriv : Option ℕ) (k : ℕ) (v : ℕ → ℝ)
    (h : PPoly.modelSynthCoeffs m.base [t] none deriv none = .ok (k, [some v])) :
    ∃ C, modelPlotSpectrum a m t radius nmax deriv = .ok C ∧ C.length = usedDegree N nmax ∧ ∀ n, 1 ≤ n → n ≤ usedDegree N nmax →
      C[n - 1]? = some ((n : ℝ), if Spectrum.docFactor m.source a (radius.getD a) n * degreePower v n = 0 then none
        else some (Spectrum.docFactor m.source a (radius.getD a) n * degreePower v n)) := by
  have hdeg : (nmaxOfDim m.base.dim).toNat = N := by rw [hdim, nmax_dim]
  have hu : usedDegree N (some (nmax.getD N)) = usedDegree N nmax := by
    unfold usedDegree
    cases nmax with
    | none => simp
    | some n => simp
  obtain ⟨W, e1, e2, e3⟩ := SynthPP.C66_model a ha m hsrc N hdim [t] radius hr (some (nmax.getD N)) (some (deriv.getD 0)) none k [some v]
    (by rw [coeffs_deriv]; exact h)
  obtain ⟨w, f1, f2, f3⟩ := (e3 0).2 v rfl
  rw [hu] at f2 f3
  obtain ⟨x, rfl⟩ := List.length_eq_one_iff.1 e2
  simp only [List.getElem?_cons_zero, Option.some.injEq] at f1
  subst f1
  obtain ⟨g1, _, g3, _⟩ := C67_spectrum (w.map some)
  refine ⟨(plotSpectrum (w.map some)).1, ?_, by rw [g1, List.length_map, f2], ?_⟩
  · unfold modelPlotSpectrum
    simp only [hdeg]
    rw [e1]
    rfl
  · intro n hn1 hn2
    have hw := f3 n hn1 hn2
    rw [(g3 (n - 1) (some (Spectrum.docFactor m.source a (radius.getD a) n * degreePower v n)) (by rw [List.getElem?_map, hw]; rfl)).1]
    have : ((n - 1 : ℕ) : ℝ) + 1 = n := by
      rw [Nat.cast_sub hn1]
      simp
    rw [this]
    simp only [Option.some.injEq]

theorem ok_bind {α β : Type} {x : Except Error α} {f : α → Except Error β} {b : β} (h : (x >>= f) = .ok b) : ∃ a, x = .ok a ∧ f a = .ok b := by
  cases x with
  | error e => cases h
  | ok a => exact ⟨a, rfl, h⟩

/-- The value (`none`: NaN) of the external field at one point: of the GSM part, of the SM part with the RC index of the file, or of their sum. -/
def ExternalAt (env : Env) (m : Chaos) (nmax : Option ℕ) (reference source : String) (p : Pt) (v : Val) : Prop :=
  (reference = "gsm" ∧ synthValuesGsm env m [p] nmax (some source) = .ok [v]) ∨
  (reference = "sm" ∧ synthValuesSm env m [p] none none nmax (some source) = .ok [v]) ∨
  (reference = "all" ∧ ∃ v1 v2, synthValuesGsm env m [p] nmax (some source) = .ok [v1] ∧ synthValuesSm env m [p] none none nmax (some source) = .ok [v2] ∧
    v = Val.add v1 v2)

/-- The same for a list of points. -/
noncomputable def externalList (env : Env) (m : Chaos) (pts : List Pt) (nmax : Option ℕ) (reference source : String) : Except Error (List Val) :=
  if reference = "all" then do
    let g ← synthValuesGsm env m pts nmax (some source)
    let s ← synthValuesSm env m pts none none nmax (some source)
    pure (addFields g s)
  else if reference = "gsm" then synthValuesGsm env m pts nmax (some source)
  else if reference = "sm" then synthValuesSm env m pts none none nmax (some source)
  else .error Error.valueError

theorem sources (source : String) (h : source = "all" ∨ source = "external" ∨ source = "internal") :
    source = "all" ∨ ∃ src : Source, source = src.name := by
  rcases h with h | h | h
  · exact Or.inl h
  · exact Or.inr ⟨.external, h⟩
  · exact Or.inr ⟨.internal, h⟩

theorem pw_gsm_any (env : Env) (ha : 0 < env.rSurf) (m : Chaos) (nmax : Option ℕ) (source : String)
    (h : source = "all" ∨ source = "external" ∨ source = "internal") :
    Pointwise fun xs => synthValuesGsm env m (xs.map Prod.fst) nmax (some source) := by
  rcases sources source h with rfl | ⟨src, rfl⟩
  · exact pw_add _ _ _ (pw_gsm env ha m .external nmax) (pw_gsm env ha m .internal nmax) (fun xs B => gsm_split env m (xs.map Prod.fst) nmax B)
  · exact pw_gsm env ha m src nmax

theorem pw_sm_any (env : Env) (ha : 0 < env.rSurf) (m : Chaos) (nmax : Option ℕ) (source : String)
    (h : source = "all" ∨ source = "external" ∨ source = "internal") :
    Pointwise fun xs => synthValuesSm env m (xs.map Prod.fst) none none nmax (some source) := by
  rcases sources source h with rfl | ⟨src, rfl⟩
  · exact pw_add _ _ _ (pw_sm env ha m .external nmax false false) (pw_sm env ha m .internal nmax false false)
      (fun xs B => sm_split env m (xs.map Prod.fst) none none nmax B)
  · exact pw_sm env ha m src nmax false false

theorem pw_external (env : Env) (ha : 0 < env.rSurf) (m : Chaos) (nmax : Option ℕ) (reference source : String)
    (hR : reference = "all" ∨ reference = "gsm" ∨ reference = "sm") (h : source = "all" ∨ source = "external" ∨ source = "internal") :
    Pointwise fun xs => externalList env m (xs.map Prod.fst) nmax reference source := by
  have h1 : ¬ ("gsm" = "all") := by decide
  have h2 : ¬ ("sm" = "all") := by decide
  have h3 : ¬ ("sm" = "gsm") := by decide
  rcases hR with rfl | rfl | rfl
  · refine pw_add _ _ _ (pw_gsm_any env ha m nmax source h) (pw_sm_any env ha m nmax source h) ?_
    intro xs B
    unfold externalList
    rw [if_pos rfl]
    constructor
    · intro hx
      obtain ⟨g, hg, hx⟩ := ok_bind hx
      obtain ⟨s, hs, hx⟩ := ok_bind hx
      exact ⟨g, s, hg, hs, (Except.ok.inj hx).symm⟩
    · rintro ⟨g, s, hg, hs, rfl⟩
      rw [hg, hs]
      rfl
  · unfold externalList
    simp only [if_neg h1, if_true]
    exact pw_gsm_any env ha m nmax source h
  · unfold externalList
    simp only [if_neg h2, if_neg h3, if_true]
    exact pw_sm_any env ha m nmax source h

theorem external_at (env : Env) (ha : 0 < env.rSurf) (m : Chaos) (nmax : Option ℕ) (reference source : String)
    (hR : reference = "all" ∨ reference = "gsm" ∨ reference = "sm") (h : source = "all" ∨ source = "external" ∨ source = "internal") (p : Pt) (hp : p.Valid) (v : Val) :
    ExternalAt env m nmax reference source p v ↔ externalList env m [p] nmax reference source = .ok [v] := by
  have h1 : ¬ ("gsm" = "all") := by decide
  have h2 : ¬ ("sm" = "all") := by decide
  have h3 : ¬ ("sm" = "gsm") := by decide
  have h4 : ¬ ("all" = "gsm") := by decide
  have h5 : ¬ ("all" = "sm") := by decide
  have h6 : ¬ ("gsm" = "sm") := by decide
  have one : ∀ G : List PtRc → Except Error (List Val), Pointwise G → ∀ B, G [(p, 0, 0)] = .ok B → ∃ v, B = [v] := by
    rintro G ⟨g, hg⟩ B hB
    have := (hg [(p, 0, 0)] (by simp) (by simpa using hp) B).1 hB
    cases this with
    | cons _ h => cases h; exact ⟨_, rfl⟩
  unfold ExternalAt externalList
  rcases hR with rfl | rfl | rfl
  · rw [if_pos rfl]
    constructor
    · rintro (⟨hh, _⟩ | ⟨hh, _⟩ | ⟨_, v1, v2, e1, e2, rfl⟩)
      · exact absurd hh h4
      · exact absurd hh h5
      · rw [e1, e2]; rfl
    · intro hx
      obtain ⟨g, hg, hx⟩ := ok_bind hx
      obtain ⟨s, hs, hx⟩ := ok_bind hx
      obtain ⟨v1, rfl⟩ := one _ (pw_gsm_any env ha m nmax source h) g hg
      obtain ⟨v2, rfl⟩ := one _ (pw_sm_any env ha m nmax source h) s hs
      refine Or.inr (Or.inr ⟨rfl, v1, v2, hg, hs, ?_⟩)
      have hv := Except.ok.inj hx
      simp only [addFields, List.zipWith_cons_cons, List.zipWith_nil_left, List.cons.injEq, and_true] at hv
      exact hv.symm
  · rw [if_neg h1, if_pos rfl]
    constructor
    · rintro (⟨_, hh⟩ | ⟨hh, _⟩ | ⟨hh, _⟩)
      · exact hh
      · exact absurd hh h6
      · exact absurd hh h1
    · exact fun hh => Or.inl ⟨rfl, hh⟩
  · rw [if_neg h2, if_neg h3, if_pos rfl]
    constructor
    · rintro (⟨hh, _⟩ | ⟨_, hh⟩ | ⟨hh, _⟩)
      · exact absurd hh h3
      · exact hh
      · exact absurd hh h2
    · exact fun hh => Or.inr (Or.inl ⟨rfl, hh⟩)

theorem external_agrees {grid : Option Bool} {time radius theta phi theta' phi' : Arr ℝ} {G H : List ℕ} (F : Fit grid time radius theta phi theta' phi' G H)
    (hg : grid = some true) (env : Env) (m : Chaos) (nmax : Option ℕ) (reference source : String) :
    Agrees G H (externalValues env m time radius theta phi nmax reference source)
      (externalList env m ((indices H).map (ptAt time radius theta' phi')) nmax reference source) := by
  subst hg
  have ag := ChaosArr.gsm_agrees F env m nmax (some source)
  have as := ChaosArr.sm_agrees F env m none none (by simp) (by simp) nmax (some source)
  have hrc : ChaosArr.rcList H none = none := rfl
  rw [hrc] at as
  unfold externalValues externalList
  split_ifs
  · unfold Agrees at ag as ⊢
    rcases ag with ⟨e, g1, g2⟩ | ⟨B1, g1, g2, g3⟩
    · exact Or.inl ⟨e, by rw [g1]; rfl, by rw [g2]; rfl⟩
    · rcases as with ⟨e, s1, s2⟩ | ⟨B2, s1, s2, s3⟩
      · exact Or.inl ⟨e, by rw [g1, s1]; rfl, by rw [g3, s2]; rfl⟩
      · have := ChaosArr.addArr_agrees F.into B1 B2 g2 s2
        rw [g1, s1, g3, s3]
        exact this
  · exact ag
  · exact as
  · exact Or.inl ⟨_, rfl, rfl⟩

/-- **C68 (maps of the external field).** For the reference `all` (default), `gsm` or `sm` and the source `all` (default), `external` or `internal`, in any
case of letters, `plot_maps_external` succeeds if the value of this contribution can be computed at each of 320 x 721 points of the sphere, and then draws
their components below each other; it fails if a value cannot be computed at one of them. -/
theorem C68_external (env : Env) (ha : 0 < env.rSurf) (m : Chaos) (time radius : Arr ℝ) (t r : ℝ) (ht : Single time t) (hr : Single radius r) (hr0 : 0 < r)
    (nmax : Option ℕ) (reference source : Option String) (R S : String) (hRm : (reference.map String.toLower).getD "all" = R) (hSm : (source.map String.toLower).getD "all" = S)
    (hR : R = "all" ∨ R = "gsm" ∨ R = "sm") (hS : S = "all" ∨ S = "external" ∨ S = "internal") :
    (∀ b : ℕ → ℕ → ℝ × ℝ × ℝ, (∀ j < 320, ∀ k < 721, ExternalAt env m nmax R S ⟨t, r, gridTheta j, gridPhi 721 k⟩ (some (b j k))) →
      ∃ P, plotMapsExternal env m time radius nmax reference source = .ok P ∧ FieldMaps 721 b (shownTitles (if R = "all" then S ++ " sources" else R.toUpper ++ " " ++ S ++ " sources")) "nT" none none P) ∧
    (∀ j < 320, ∀ k < 721, (∀ v, ¬ ExternalAt env m nmax R S ⟨t, r, gridTheta j, gridPhi 721 k⟩ v) →
      ∀ P, plotMapsExternal env m time radius nmax reference source ≠ .ok P) := by
  rw [← externalTitles_eq]
  obtain ⟨theta', phi', F, hpt⟩ := grid_fit time radius t r ht hr (linspace 1 179 320) (linspace (-180) 180 721)
    (by rw [linspace_length]; norm_num) (by rw [linspace_length]; norm_num)
  rw [linspace_length, linspace_length] at F hpt
  have hag := external_agrees F rfl env m nmax R S
  unfold Agrees at hag
  generalize hI : indices [320, 721] = I at hag
  have hmem : ∀ i ∈ I, ∃ j < 320, ∃ l < 721, i = [j, l] := by
    intro i hi
    rw [← hI] at hi
    exact valid_pair (mem_indices.1 hi)
  have hne : I ≠ [] := by
    rw [← hI]
    exact indices_ne_nil F.pos
  have hpt' : ∀ j < 320, ∀ k < 721, ptAt time radius theta' phi' [j, k] = ⟨t, r, gridTheta j, gridPhi 721 k⟩ := by
    intro j hj k hk
    rw [hpt j hj k hk, theta_get j hj, phi_get 721 k hk]
  have hval : ∀ j < 320, ∀ k, Pt.Valid ⟨t, r, gridTheta j, gridPhi 721 k⟩ := fun j hj k => ⟨(theta_range j hj).1, (theta_range j hj).2, hr0⟩
  obtain ⟨g, hgp⟩ := pw_external env ha m nmax R S hR hS
  have hone : ∀ p : Pt, p.Valid → ∀ v, ExternalAt env m nmax R S p v ↔ g (p, 0, 0) = some v := by
    intro p hp v
    rw [external_at env ha m nmax R S hR hS p hp v]
    have := hgp [(p, 0, 0)] (by simp) (by simpa using hp) [v]
    simp only [List.map_cons, List.map_nil] at this
    rw [this]
    simp
  set xs : List PtRc := I.map fun i => (ptAt time radius theta' phi' i, 0, 0) with hxs
  have hxs1 : xs.map Prod.fst = I.map (ptAt time radius theta' phi') := by rw [hxs, List.map_map]; rfl
  have hxv : ∀ x ∈ xs, x.1.Valid := by
    intro x hx
    obtain ⟨i, hi, rfl⟩ := List.mem_map.1 hx
    obtain ⟨j, hj, l, hl, rfl⟩ := hmem i hi
    simp only [hpt' j hj l hl]
    exact hval j hj l
  have hall := hgp xs (by simpa [hxs] using hne) hxv
  simp only [hxs1] at hall
  have hin : ∀ j < 320, ∀ k < 721, [j, k] ∈ I := by
    intro j hj k hk
    rw [← hI]
    exact mem_indices.2 (pair_valid hj hk)
  constructor
  · intro b hb
    have hok := (hall (I.map fun i => some (b (i.getD 0 0) (i.getD 1 0)))).2 (by
      rw [hxs, List.forall₂_map_left_iff, List.forall₂_map_right_iff, List.forall₂_same]
      intro i hi
      obtain ⟨j, hj, l, hl, rfl⟩ := hmem i hi
      rw [hpt' j hj l hl]
      exact (hone _ (hval j hj l) _).1 (hb j hj l hl))
    rcases hag with ⟨e, _, g2⟩ | ⟨B, g1, g2, g3⟩
    · rw [g2] at hok; cases hok
    · have hB : ∀ j < 320, ∀ k < 721, B.get [j, k] = some (b j k) := by
        intro j hj k hk
        rw [g3] at hok
        have := List.map_inj_left.1 (Except.ok.inj hok) [j, k] (hin j hj k hk)
        rw [at_valid _ _ (by rw [g2]; exact pair_valid hj hk)] at this
        exact this
      obtain ⟨P, p1, p2⟩ := field_maps 721 (by norm_num) B b g2 hB
        { titles := some (some (externalTitles R S)), label := some (some (gaussUnits (some 0))) } rfl rfl (externalTitles R S) rfl
        (by unfold externalTitles; split_ifs <;> rfl)
      refine ⟨P, ?_, p2⟩
      unfold plotMapsExternal
      simp only [hRm, hSm, g1]
      exact p1
  · intro j hj k hk hno P hP
    unfold plotMapsExternal at hP
    simp only [hRm, hSm] at hP
    rcases hag with ⟨e, g1, _⟩ | ⟨B, g1, g2, g3⟩
    · rw [g1] at hP; cases hP
    · have hF := (hall _).1 g3
      rw [hxs, List.forall₂_map_left_iff, List.forall₂_map_right_iff, List.forall₂_same] at hF
      have := hF [j, k] (hin j hj k hk)
      rw [hpt' j hj k hk] at this
      exact hno _ ((hone _ (hval j hj k) _).2 this)

/-- **C68 (wrong names).** Another reference or another source raises `ValueError`. -/
theorem C68_external_error (env : Env) (m : Chaos) (time radius : Arr ℝ) (nmax : Option ℕ) (reference source : Option String)
    (h : (∃ x, reference = some x ∧ x.toLower ∉ ["all", "gsm", "sm"]) ∨ ∃ x, source = some x ∧ x.toLower ∉ ["all", "external", "internal"]) :
    plotMapsExternal env m time radius nmax reference source = .error Error.valueError := by
  have hval : ∀ R S : String, R ∉ ["all", "gsm", "sm"] ∨ S ∉ ["all", "external", "internal"] → ∀ theta phi,
      externalValues env m time radius theta phi nmax R S = .error Error.valueError := by
    intro R S hRS theta phi
    simp only [List.mem_cons, List.not_mem_nil, or_false, not_or] at hRS
    have hs : S ≠ "all" ∧ S ≠ "external" ∧ S ≠ "internal" →
        ChaosArr.valuesGsm env m time radius theta phi nmax (some S) (some true) = .error Error.valueError ∧
        ChaosArr.valuesSm env m time radius theta phi none none nmax (some S) (some true) = .error Error.valueError := by
      rintro ⟨s1, s2, s3⟩
      unfold ChaosArr.valuesGsm ChaosArr.valuesSm
      simp only [Option.getD_some, if_neg s1, s2, s3, or_self, if_false]
      exact ⟨rfl, rfl⟩
    unfold externalValues
    rcases hRS with ⟨r1, r2, r3⟩ | hS
    · rw [if_neg r1, if_neg r2, if_neg r3]
    · obtain ⟨e1, e2⟩ := hs hS
      split_ifs
      · rw [e1]; rfl
      · exact e1
      · exact e2
      · rfl
  have e : externalValues env m time radius (ofList (linspace 1 179 320)) (ofList (linspace (-180) 180 721)) nmax
      ((reference.map String.toLower).getD "all") ((source.map String.toLower).getD "all") = .error Error.valueError := by
    apply hval
    rcases h with ⟨x, rfl, hx⟩ | ⟨x, rfl, hx⟩
    · exact Or.inl hx
    · exact Or.inr hx
  unfold plotMapsExternal
  simp only [e]

/-- A constant axial dipole between the times 0 and 1: `C68_maps` applies to it and the maps show the field of the dipole. -/
example : ∃ (P : List MapPanel) (b : ℕ → ℕ → ℝ × ℝ × ℝ) (v : ℕ → ℝ), v 0 = 5 ∧
    modelPlotMaps 6371.2 ⟨PPoly.Base.init [0, 1] none 1 3 fun _ _ d => if d = 0 then 5 else 0, "internal"⟩ (scalar (1 / 2)) (scalar 6371.2) none none {} = .ok P ∧
    (∀ j < 320, ∀ l < 640, MinusGradient .internal 6371.2 v 1 ⟨1 / 2, 6371.2, gridTheta j, gridPhi 640 l⟩ (b j l)) ∧
    FieldMaps 640 b (shownTitles "$n\\leq1$, deriv=0") "nT" none none P := by
  have hx : PPoly.Ascending [0, 1] := by
    refine ⟨by simp, fun j hj => ?_⟩
    simp only [List.length_cons, List.length_nil] at hj
    obtain rfl : j = 0 := by omega
    simp
  obtain ⟨vals, h1, h2, h3⟩ := PPoly.C26_constructed [0, 1] hx none (by simp) 1 3 one_pos (by norm_num) (fun _ _ d => if d = 0 then 5 else 0) [1 / 2] none none
    (by simp) (Or.inr (by intro t ht; rw [List.mem_singleton] at ht; rw [ht]; norm_num [first, last]))
  obtain ⟨v, h4, h5⟩ := h3 0 (1 / 2) 0 rfl ⟨by simp, Or.inl ⟨by norm_num, by norm_num⟩⟩ (by norm_num [last])
  obtain ⟨y, rfl⟩ := List.length_eq_one_iff.1 h2
  simp only [List.getElem?_cons_zero, Option.some.injEq] at h4
  subst h4
  obtain ⟨P, b, p1, p2, p3⟩ := C68_maps 6371.2 (by norm_num) ⟨PPoly.Base.init [0, 1] none 1 3 fun _ _ d => if d = 0 then 5 else 0, "internal"⟩ .internal rfl 1 rfl
    le_rfl (scalar (1 / 2)) (scalar 6371.2) (1 / 2) 6371.2 (Or.inl ⟨rfl, rfl⟩) (Or.inl ⟨rfl, rfl⟩) (by norm_num) none (by simp) none 3 v h1 {} rfl rfl rfl rfl
  refine ⟨P, b, v, ?_, p1, p2, p3⟩
  rw [h5 0]
  norm_num [Spec.poly]

/-- The maps of the whole external field of the concrete model exist. -/
example : ∃ P b, plotMapsExternal exEnv exChaos (scalar 5) (scalar 6371.2) none none none = .ok P ∧ FieldMaps 721 b (shownTitles "all sources") "nT" none none P := by
  have hr : 0 < exEnv.rSurf := by norm_num [exEnv]
  have key : ∀ p : Pt, p.Valid → p.time = 5 → ∃ b, ExternalAt exEnv exChaos none "all" "all" p (some b) := by
    intro p hp ht
    have hp' : ∀ q ∈ [p], q.Valid := by simpa using hp
    have hg : ∀ src : Source, ∃ b, synthValuesGsm exEnv exChaos [p] none (some src.name) = .ok [some b] := by
      intro src
      obtain ⟨rows, h⟩ := ex_gsm [p.time] (by simp) src
      obtain ⟨B, hB, hl, -⟩ := C56_gsm exEnv hr exChaos src [p] (by simp) hp' none 3 1 rows le_rfl (by norm_num) (by norm_num) h
      obtain ⟨b, rfl⟩ := List.length_eq_one_iff.1 hl
      exact ⟨b, hB⟩
    have hs : ∀ src : Source, ∃ b, synthValuesSm exEnv exChaos [p] none none none (some src.name) = .ok [some b] := by
      intro src
      obtain ⟨rows, h⟩ := ex_sm src
      obtain ⟨B, hB, hl, -⟩ := C56_sm exEnv hr exChaos src [p] (by simp) hp' none none none 3 1 rows le_rfl (by norm_num) (by norm_num)
        (by rw [ite_self]; simp only [List.map_cons, List.map_nil, ht]; exact h)
      obtain ⟨b, rfl⟩ := List.length_eq_one_iff.1 hl
      exact ⟨b, hB⟩
    obtain ⟨ge, hge⟩ := hg .external
    obtain ⟨gi, hgi⟩ := hg .internal
    obtain ⟨se, hse⟩ := hs .external
    obtain ⟨si, hsi⟩ := hs .internal
    have g := (gsm_split exEnv exChaos [p] none _).2 ⟨_, _, hge, hgi, rfl⟩
    have s := (sm_split exEnv exChaos [p] none none none _).2 ⟨_, _, hse, hsi, rfl⟩
    exact ⟨_, Or.inr (Or.inr ⟨rfl, _, _, g, s, rfl⟩)⟩
  have hval : ∀ j < 320, ∀ k, Pt.Valid ⟨5, 6371.2, gridTheta j, gridPhi 721 k⟩ := fun j hj k => ⟨(theta_range j hj).1, (theta_range j hj).2, by norm_num⟩
  have hb : ∀ j k, ∃ b, j < 320 → ExternalAt exEnv exChaos none "all" "all" ⟨5, 6371.2, gridTheta j, gridPhi 721 k⟩ (some b) := by
    intro j k
    by_cases hj : j < 320
    · obtain ⟨b, hb⟩ := key _ (hval j hj k) rfl
      exact ⟨b, fun _ => hb⟩
    · exact ⟨(0, 0, 0), fun h => absurd h hj⟩
  choose b hb using hb
  obtain ⟨P, p1, p2⟩ := (C68_external exEnv hr exChaos (scalar 5) (scalar 6371.2) 5 6371.2 (Or.inl ⟨rfl, rfl⟩) (Or.inl ⟨rfl, rfl⟩) (by norm_num) none none none
    "all" "all" rfl rfl (Or.inl rfl) (Or.inl rfl)).1 b (fun j hj k _ => hb j k hj)
  exact ⟨P, b, p1, p2⟩

end ChaosMagPy.Plot
