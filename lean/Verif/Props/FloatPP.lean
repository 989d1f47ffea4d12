import Verif.Model.FloatPP
import Verif.Lemmas.Near
import Verif.Props.PPoly
/-!
# C88: spline models evaluated in double precision
-/
namespace ChaosMagPy.PPoly
open ChaosMagPy.Spec
open ChaosMagPy.Float (uu tiny uu_pos tiny_pos Near)

/-- Bound for the computed power. -/
noncomputable def zB (σ s : ℝ) (q : ℕ) : ℝ := (1 + uu) ^ (2 * q) * s ^ q + tiny * ((8 * σ) ^ q - 1)

/-- Bound for the computed sum. -/
noncomputable def rB (σ B A : ℝ) (q : ℕ) : ℝ := (1 + uu) ^ (2 * q + 3) * A + tiny * (8 * B * ((8 * σ) ^ q - 1))

theorem v_small : (1 : ℝ) + uu ≤ 1.001 := by unfold uu; norm_num
theorem tiny_small : tiny ≤ 0.001 := by
  have : tiny ≤ (2 : ℝ) ^ (-10 : ℤ) := by unfold tiny; exact zpow_le_zpow_right₀ (by norm_num) (by norm_num)
  refine this.trans (by norm_num)

theorem one_le_Y {σ : ℝ} (hσ : 1 ≤ σ) (q : ℕ) : 1 ≤ (8 * σ) ^ q := one_le_pow₀ (by linarith)

theorem v_pow_le {σ s : ℝ} (hσ : 1 ≤ σ) (hs0 : 0 ≤ s) (hs : s ≤ σ) (q : ℕ) : (1 + uu) ^ (2 * q) * s ^ q ≤ (8 * σ) ^ q := by
  have hu := uu_pos
  have hv := v_small
  rw [pow_mul, ← mul_pow]
  apply pow_le_pow_left₀ (by positivity)
  have : (1 + uu) ^ 2 ≤ 8 := by nlinarith
  exact mul_le_mul this hs hs0 (by norm_num)

theorem zB_le {σ s : ℝ} (hσ : 1 ≤ σ) (hs0 : 0 ≤ s) (hs : s ≤ σ) (q : ℕ) : zB σ s q ≤ 2 * (8 * σ) ^ q := by
  have h1 := v_pow_le hσ hs0 hs q
  have h2 := one_le_Y hσ q
  have h3 := tiny_small
  have h4 := tiny_pos
  unfold zB
  nlinarith

theorem zB_nonneg {σ s : ℝ} (hσ : 1 ≤ σ) (hs0 : 0 ≤ s) (q : ℕ) : 0 ≤ zB σ s q := by
  have h2 := one_le_Y hσ q
  have h4 := tiny_pos
  have hu := uu_pos
  unfold zB
  have : 0 ≤ tiny * ((8 * σ) ^ q - 1) := mul_nonneg h4.le (by linarith)
  have : 0 ≤ (1 + uu) ^ (2 * q) * s ^ q := by positivity
  linarith

theorem zB_succ {σ s : ℝ} (hσ : 1 ≤ σ) (hs0 : 0 ≤ s) (hs : s ≤ σ) (q : ℕ) : (1 + uu) * (zB σ s q * ((1 + uu) * s + tiny)) + tiny ≤ zB σ s (q + 1) := by
  have h1 := v_pow_le hσ hs0 hs q
  have h2 := one_le_Y hσ q
  have h3 := tiny_small
  have h4 := tiny_pos
  have hu := uu_pos
  have hv := v_small
  unfold zB
  generalize hv' : (1 : ℝ) + uu = v at *
  have hv1 : 1 ≤ v := by linarith
  generalize hY : (8 * σ) ^ q = Y at *
  generalize hW : v ^ (2 * q) * s ^ q = W at *
  have hW0 : 0 ≤ W := by rw [← hW]; positivity
  have e1 : v ^ (2 * (q + 1)) * s ^ (q + 1) = v * v * s * W := by rw [← hW]; ring
  have e2 : (8 * σ) ^ (q + 1) = 8 * σ * Y := by rw [← hY]; ring
  rw [e1, e2]
  have key : v * W + v * (Y - 1) * (v * s + tiny) + 1 ≤ 8 * σ * Y - 1 := by
    have a1 : v * W ≤ 1.001 * Y := mul_le_mul hv h1 hW0 (by norm_num)
    have a2 : v * s + tiny ≤ 1.002 * σ := by nlinarith
    have a3 : v * (Y - 1) ≤ 1.001 * Y := by nlinarith
    have a4 : v * (Y - 1) * (v * s + tiny) ≤ (1.001 * Y) * (1.002 * σ) := mul_le_mul a3 a2 (by positivity) (by positivity)
    have a5 : 1 ≤ σ * Y := by nlinarith
    have a6 : Y ≤ σ * Y := by nlinarith
    nlinarith
  nlinarith [mul_le_mul_of_nonneg_left key h4.le]

theorem rB_succ {σ s B a A : ℝ} (hσ : 1 ≤ σ) (hs0 : 0 ≤ s) (hs : s ≤ σ) (hB : 1 ≤ B) (ha0 : 0 ≤ a) (ha : a ≤ B) (hA : 0 ≤ A) (q : ℕ) :
    (1 + uu) * (rB σ B A q + ((1 + uu) * ((1 + uu) * (((1 + uu) * a + tiny) * zB σ s q) + tiny) + tiny)) + tiny ≤ rB σ B (A + a * s ^ q) (q + 1) := by
  have h1 := v_pow_le hσ hs0 hs q
  have hz := zB_le hσ hs0 hs q
  have hz0 := zB_nonneg hσ hs0 q
  have h2 := one_le_Y hσ q
  have h3 := tiny_small
  have h4 := tiny_pos
  have hu := uu_pos
  have hv := v_small
  have hzdef : zB σ s q = (1 + uu) ^ (2 * q) * s ^ q + tiny * ((8 * σ) ^ q - 1) := rfl
  unfold rB
  generalize hv' : (1 : ℝ) + uu = v at *
  have hv1 : 1 ≤ v := by linarith
  have e2 : (8 * σ) ^ (q + 1) = 8 * σ * (8 * σ) ^ q := by ring
  rw [e2]
  generalize hY : (8 * σ) ^ q = Y at *
  generalize hZ : zB σ s q = Z at *
  have e1 : v ^ (2 * (q + 1) + 3) * (A + a * s ^ q) = v * (v * (v ^ (2 * q + 3) * A)) + v * (v ^ 4 * a * (v ^ (2 * q) * s ^ q)) := by ring
  rw [e1]
  have hm1 : v * (v ^ (2 * q + 3) * A) ≤ v * (v * (v ^ (2 * q + 3) * A)) := by
    have : 0 ≤ v * (v ^ (2 * q + 3) * A) := by positivity
    nlinarith
  have hm2 : v ^ 4 * a * (v ^ (2 * q) * s ^ q) ≤ v * (v ^ 4 * a * (v ^ (2 * q) * s ^ q)) := by
    have : 0 ≤ v ^ 4 * a * (v ^ (2 * q) * s ^ q) := by positivity
    nlinarith
  have hW : v ^ (2 * q) * s ^ q = Z - tiny * (Y - 1) := by linarith
  have v3 : v ^ 3 ≤ 1.004 := by
    calc v ^ 3 ≤ 1.001 ^ 3 := pow_le_pow_left₀ (by linarith) hv 3
      _ ≤ 1.004 := by norm_num
  have v4 : v ^ 4 ≤ 1.005 := by
    calc v ^ 4 ≤ 1.001 ^ 4 := pow_le_pow_left₀ (by linarith) hv 4
      _ ≤ 1.005 := by norm_num
  have v2 : v ^ 2 ≤ 1.003 := by
    calc v ^ 2 ≤ 1.001 ^ 2 := pow_le_pow_left₀ (by linarith) hv 2
      _ ≤ 1.003 := by norm_num
  have key : v * (8 * B * (Y - 1)) + v ^ 3 * Z + v ^ 4 * a * (Y - 1) + v ^ 2 + v + 1 ≤ 8 * B * (8 * σ * Y - 1) := by
    have hBY : 1 ≤ B * Y := by nlinarith
    have a1 : v * (8 * B * (Y - 1)) ≤ 1.001 * (8 * B * (Y - 1)) := mul_le_mul_of_nonneg_right hv (by
      have : 0 ≤ Y - 1 := by linarith
      positivity)
    have a2 : v ^ 3 * Z ≤ 1.004 * (2 * Y) := mul_le_mul v3 hz hz0 (by norm_num)
    have a3 : v ^ 4 * a * (Y - 1) ≤ 1.005 * B * (Y - 1) := by
      apply mul_le_mul_of_nonneg_right _ (by linarith)
      exact mul_le_mul v4 ha ha0 (by norm_num)
    have a4 : Y ≤ B * Y := by nlinarith
    have a5 : B * Y ≤ B * (σ * Y) := by
      apply mul_le_mul_of_nonneg_left _ (by linarith)
      nlinarith
    nlinarith
  have ht := mul_le_mul_of_nonneg_left key h4.le
  have e3 : v * (v ^ (2 * q + 3) * A + tiny * (8 * B * (Y - 1)) + (v * (v * ((v * a + tiny) * Z) + tiny) + tiny)) + tiny =
      v * (v ^ (2 * q + 3) * A) + v ^ 4 * a * (Z - tiny * (Y - 1)) + tiny * (v * (8 * B * (Y - 1)) + v ^ 3 * Z + v ^ 4 * a * (Y - 1) + v ^ 2 + v + 1) := by ring
  rw [e3, ← hW]
  linarith

/-- The sum of the absolute values of the terms. -/
theorem terms_le {σ s B : ℝ} (hσ : 1 ≤ σ) (hs0 : 0 ≤ s) (hs : s ≤ σ) (hB : 1 ≤ B) (a : ℕ → ℝ) (k : ℕ) (ha : ∀ p < k, |a p| ≤ B) (q : ℕ) (hq : q ≤ k) :
    ∑ p ∈ Finset.range q, |a p| * s ^ p ≤ B * (2 * σ) ^ q := by
  induction q with
  | zero => simp; linarith
  | succ q ih =>
    rw [Finset.sum_range_succ]
    have h1 := ih (by omega)
    have h2 : |a q| * s ^ q ≤ B * (2 * σ) ^ q := by
      apply mul_le_mul (ha q (by omega)) _ (by positivity) (by linarith)
      exact pow_le_pow_left₀ hs0 (by linarith) q
    have h3 : 0 ≤ B * (2 * σ) ^ q := by positivity
    rw [pow_succ]
    nlinarith

theorem rB_le {σ B A : ℝ} (hσ : 1 ≤ σ) (hB : 1 ≤ B) (q : ℕ) (hA0 : 0 ≤ A) (hA : A ≤ B * (2 * σ) ^ q) : rB σ B A q ≤ 4 * B * (8 * σ) ^ q := by
  have hu := uu_pos
  have hv := v_small
  have h3 := tiny_small
  have h4 := tiny_pos
  have h2 := one_le_Y hσ q
  unfold rB
  have e : (1 + uu) ^ (2 * q + 3) * A ≤ 2 * (B * (8 * σ) ^ q) := by
    have a1 : (1 + uu) ^ (2 * q + 3) = (1 + uu) ^ 3 * ((1 + uu) ^ 2) ^ q := by rw [← pow_mul]; ring
    have a2 : (1 + uu) ^ 3 ≤ 2 := by nlinarith [mul_pos hu hu]
    have a3 : ((1 + uu) ^ 2) ^ q ≤ 4 ^ q := pow_le_pow_left₀ (by positivity) (by nlinarith) q
    have a4 : (8 * σ) ^ q = 4 ^ q * (2 * σ) ^ q := by rw [← mul_pow]; ring
    rw [a1, a4]
    calc (1 + uu) ^ 3 * ((1 + uu) ^ 2) ^ q * A ≤ 2 * 4 ^ q * (B * (2 * σ) ^ q) := by
          apply mul_le_mul _ hA hA0 (by positivity)
          exact mul_le_mul a2 a3 (by positivity) (by norm_num)
      _ = 2 * (B * (4 ^ q * (2 * σ) ^ q)) := by ring
  have hBY : 1 ≤ B * (8 * σ) ^ q := by nlinarith
  generalize (8 * σ) ^ q = Y at *
  have : tiny * (8 * B * (Y - 1)) ≤ 0.001 * (8 * (B * Y)) := by
    apply mul_le_mul h3 _ _ (by norm_num)
    · nlinarith
    · have : 0 ≤ Y - 1 := by linarith
      positivity
  linarith

/-- The loop of `evaluate_poly1`. -/
theorem loop_near (R : Rounding) {σ s sh B : ℝ} (hσ : 1 ≤ σ) (hs : |s| ≤ σ) (hB : 1 ≤ B) (k : ℕ) (c ch : ℕ → ℝ) (hc : ∀ i < k, |c i| ≤ B)
    (hch : ∀ i < k, Near (ch i) (c i) |c i| ((1 + uu) * |c i| + tiny)) (hsh : Near sh s |s| ((1 + uu) * |s| + tiny)) (hO : 32 * B * (8 * σ) ^ k ≤ 2 ^ 1000) (q : ℕ) (hq : q ≤ k) :
    Near ((List.range q).foldl (termF R k ch 0 sh) (0, 1)).1 (∑ p ∈ Finset.range q, c (k - 1 - p) * s ^ p) (∑ p ∈ Finset.range q, |c (k - 1 - p)| * |s| ^ p)
        (rB σ B (∑ p ∈ Finset.range q, |c (k - 1 - p)| * |s| ^ p) q) ∧
      (q < k → Near ((List.range q).foldl (termF R k ch 0 sh) (0, 1)).2 (s ^ q) (|s| ^ q) (zB σ |s| q)) := by
  have hs0 := abs_nonneg s
  induction q with
  | zero =>
    refine ⟨⟨by simp [rB], by simp⟩, fun _ => ⟨by simp [zB], by simp⟩⟩
  | succ q ih =>
    obtain ⟨ih1, ih2⟩ := ih (by omega)
    have ih2 := ih2 (by omega)
    rw [List.range_succ, List.foldl_append, List.foldl_cons, List.foldl_nil]
    generalize (List.range q).foldl (termF R k ch 0 sh) (0, 1) = a at *
    have hY : (8 * σ) ^ (q + 1) ≤ (8 * σ) ^ k := pow_le_pow_right₀ (by linarith) hq
    have hYq : (8 * σ) ^ (q + 1) = 8 * σ * (8 * σ) ^ q := by ring
    have h1Y := one_le_Y hσ q
    have hO' : 32 * B * (8 * σ * (8 * σ) ^ q) ≤ 2 ^ 1000 := by
      rw [← hYq]
      exact (mul_le_mul_of_nonneg_left hY (by linarith)).trans hO
    have hz := zB_le hσ hs0 hs q
    have hz0 := zB_nonneg hσ hs0 q
    have ha := hc (k - 1 - q) (by omega)
    have ha' := hch (k - 1 - q) (by omega)
    have hv := v_small
    have hu := uu_pos
    have h3 := tiny_small
    have h4 := tiny_pos
    have hA0 : 0 ≤ ∑ p ∈ Finset.range q, |c (k - 1 - p)| * |s| ^ p := Finset.sum_nonneg fun _ _ => by positivity
    have hr := rB_le hσ hB q hA0 (terms_le hσ hs0 hs hB (fun p => c (k - 1 - p)) k (fun p hp => hc _ (by omega)) q (by omega))
    have hBY : (8 * σ) ^ q ≤ B * (8 * σ) ^ q := by nlinarith
    have hσY : B * (8 * σ) ^ q ≤ B * (σ * (8 * σ) ^ q) := by
      apply mul_le_mul_of_nonneg_left _ (by linarith)
      nlinarith
    have b1 : ((1 + uu) * |c (k - 1 - q)| + tiny) ≤ 1.1 * B := by nlinarith [abs_nonneg (c (k - 1 - q))]
    have b2 : ((1 + uu) * |c (k - 1 - q)| + tiny) * zB σ |s| q ≤ 1.1 * B * (2 * (8 * σ) ^ q) := mul_le_mul b1 hz hz0 (by linarith)
    have n1 := (ha'.mul ih2).rnd R (le_trans (by nlinarith) hO')
    have b3 : (1 + uu) * (((1 + uu) * |c (k - 1 - q)| + tiny) * zB σ |s| q) + tiny ≤ 3 * (B * (8 * σ) ^ q) := by nlinarith
    have n2 := n1.rnd R (le_trans (by nlinarith) hO')
    have b4 : (1 + uu) * ((1 + uu) * (((1 + uu) * |c (k - 1 - q)| + tiny) * zB σ |s| q) + tiny) + tiny ≤ 4 * (B * (8 * σ) ^ q) := by nlinarith
    have n3 := (ih1.add n2).rnd R (le_trans (by nlinarith) hO')
    constructor
    · have ht : (termF R k ch 0 sh a q).1 = R (a.1 + R (R (ch (k - 1 - q) * a.2))) := by
        unfold termF
        simp
      rw [ht, Finset.sum_range_succ, Finset.sum_range_succ]
      exact n3.mono (rB_succ hσ hs0 hs hB (abs_nonneg _) ha hA0 q)
    · intro hq'
      have ht : (termF R k ch 0 sh a q).2 = R (a.2 * sh) := by
        unfold termF
        rw [if_neg (by omega)]
        simp only
        rw [if_pos (by omega)]
      rw [ht, pow_succ, pow_succ]
      have b5 : (1 + uu) * |s| + tiny ≤ 1.1 * σ := by nlinarith
      have b6 : zB σ |s| q * ((1 + uu) * |s| + tiny) ≤ 2 * (8 * σ) ^ q * (1.1 * σ) := mul_le_mul hz b5 (by positivity) (by positivity)
      exact ((ih2.mul hsh).rnd R (le_trans (by nlinarith) hO')).mono (zB_succ hσ hs0 hs q)

/-- SciPy's evaluation. -/
theorem evalPoly_near (R : Rounding) {σ s sh B : ℝ} (hσ : 1 ≤ σ) (hs : |s| ≤ σ) (hB : 1 ≤ B) (k : ℕ) (c ch : ℕ → ℝ) (hc : ∀ i < k, |c i| ≤ B)
    (hch : ∀ i < k, Near (ch i) (c i) |c i| ((1 + uu) * |c i| + tiny)) (hsh : Near sh s |s| ((1 + uu) * |s| + tiny)) (hO : 32 * B * (8 * σ) ^ k ≤ 2 ^ 1000) :
    Near (evalPolyF R k ch 0 sh) (evalPoly k c 0 s) (∑ p ∈ Finset.range k, |c (k - 1 - p)| * |s| ^ p)
        (rB σ B (∑ p ∈ Finset.range k, |c (k - 1 - p)| * |s| ^ p) k) := by
  have := (loop_near R hσ hs hB k c ch hc hch hsh hO k le_rfl).1
  unfold evalPolyF
  have e : evalPoly k c 0 s = ∑ p ∈ Finset.range k, c (k - 1 - p) * s ^ p := by
    unfold evalPoly
    apply Finset.sum_congr rfl
    intro p _
    simp
  rw [e]
  exact this

/-! ### The call -/

/-- The polynomial after the extension at the beginning. -/
noncomputable def leftF (R : Rounding) (p : PP) (key : ℕ) : PP :=
  { k := p.k, x := first p.x :: p.x, c := fun i j d => if j = 0 then extensionBinF R p key (first p.x) i d else p.c i (j - 1) d }

theorem extendF_eq (R : Rounding) (p : PP) (hs : Sorted p.x) (hlt : first p.x < last p.x) (key : ℕ) :
    (extendSideF R p key (first p.x) >>= fun p1 => extendSideF R p1 key (last p.x)) =
      .ok (extended p (extensionBinF R p key (first p.x)) (extensionBinF R (leftF R p key) key (last p.x))) := by
  have hlen := length_ge_two p hs hlt
  have hne : p.x ≠ [] := by rintro h; rw [h] at hlen; simp at hlen
  have s1 : extendSideF R p key (first p.x) = .ok { k := p.k, x := first p.x :: p.x, c := fun i j d => if j = 0 then extensionBinF R p key (first p.x) i d else p.c i (j - 1) d } := by
    unfold extendSideF PP.extend
    rw [if_neg (not_le.2 hlt), if_pos le_rfl]
  rw [s1]
  simp only [bind, Except.bind]
  unfold extendSideF PP.extend
  simp only
  rw [last_cons _ _ hne, if_pos (le_refl _)]
  congr 1
  unfold extended
  congr 1
  funext i j d
  simp only [List.length_cons, Nat.add_sub_cancel]
  by_cases h0 : j = 0
  · subst h0
    rw [if_pos (by omega), if_pos rfl, if_pos rfl]
  · by_cases hj : j < p.x.length
    · rw [if_pos hj, if_neg h0, if_neg h0, if_pos hj]
    · rw [if_neg hj, if_neg h0, if_neg hj]
      rfl

theorem extendF (R : Rounding) (p : PP) (hs : Sorted p.x) (hlt : first p.x < last p.x) (key : ℕ) :
    ∃ l r, (extendSideF R p key (first p.x) >>= fun p1 => extendSideF R p1 key (last p.x)) = .ok (extended p l r) :=
  ⟨_, _, extendF_eq R p hs hlt key⟩

section
variable {b : Base} {c : ℕ → ℕ → ℕ → ℝ}

theorem prepareF_cases (R : Rounding) (hb : Proper b c) (times : List ℝ) (e : Extrap) (hne : times ≠ []) (hk : Known e ∨ ¬ Outside b times) :
    ∃ r, prepareF R b c times e = .ok r ∧ (r.1 = pp b c ∨ ∃ lb rb, r.1 = extended (pp b c) lb rb) := by
  obtain ⟨lo, hi, ha, hiff⟩ := aminmax_outside times (first b.breaks) (last b.breaks) hne
  unfold prepareF
  simp only [ha, bind, Except.bind]
  by_cases h : Outside b times
  · rw [if_pos (hiff.2 h), extrapKey_known _ _ (hk.resolve_right (fun hc => hc h))]
    simp only
    by_cases h0 : documentedOrder b.order e > 0
    · rw [if_pos h0]
      obtain ⟨lb, rb, hx⟩ := extendF R (pp b c) hb.sorted hb.span (documentedOrder b.order e).toNat
      simp only [pp, bind, Except.bind] at hx
      revert hx
      cases extendSideF R { k := b.order, x := b.breaks, c } (documentedOrder b.order e).toNat (first b.breaks) with
      | error z => intro hx; cases hx
      | ok p1 =>
        simp only
        cases extendSideF R p1 (documentedOrder b.order e).toNat (last b.breaks) with
        | error z => intro hx; cases hx
        | ok p2 =>
          intro hx
          injection hx with hx
          exact ⟨(p2, true), rfl, .inr ⟨lb, rb, hx⟩⟩
    · rw [if_neg h0]
      exact ⟨_, rfl, .inl rfl⟩
  · rw [if_neg (fun hc => h (hiff.1 hc))]
    exact ⟨_, rfl, .inl rfl⟩

theorem derivativeF_x (R : Rounding) (p : PP) (nu : ℕ) : (p.derivativeF R nu).x = p.x := by
  unfold PP.derivativeF
  split_ifs <;> rfl

/-- The piece used for a time inside, in the original or extended polynomial. -/
theorem interval_inside (hb : Proper b c) {p : PP} (hp : p = pp b c ∨ ∃ lb rb, p = extended (pp b c) lb rb) (ext : Bool) (j : ℕ) (t : ℝ) (hj : IsPiece b.breaks j t) (ht : t < last b.breaks) :
    ∃ j', findInterval p.x ext t = some j' ∧ p.x.getD j' 0 = b.breaks.getD j 0 ∧ p.k = b.order ∧ ∀ i d, p.c i j' d = c i j d := by
  rcases hp with rfl | ⟨lb, rb, rfl⟩
  · exact ⟨j, findInterval_piece _ hb.sorted ext j t hj, rfl, rfl, fun _ _ => rfl⟩
  · have hlen := hb.len
    have hne : b.breaks ≠ [] := by rintro h; rw [h] at hlen; simp at hlen
    have hj' := hj
    obtain ⟨hj1, hj2⟩ := hj'
    have hj2' : b.breaks.getD j 0 ≤ t ∧ t < b.breaks.getD (j + 1) 0 := by
      rcases hj2 with h | h
      · exact h
      · exact absurd h.1 ht.ne
    have hP : IsPiece (extended (pp b c) lb rb).x (j + 1) t := by
      refine ⟨by simp only [extended, pp, List.length_cons, List.length_append, List.length_nil]; omega, Or.inl ?_⟩
      simp only [extended, pp]
      rw [extended_getD _ _ _ j (by omega), extended_getD _ _ _ (j + 1) (by omega)]
      exact hj2'
    refine ⟨j + 1, findInterval_piece _ (extended_sorted b.breaks hb.sorted hne) ext _ t hP, extended_getD b.breaks _ _ j (by omega), rfl, fun i d => ?_⟩
    have hx : (pp b c).x = b.breaks := rfl
    simp only [extended]
    rw [if_neg (by omega), if_pos (by rw [hx]; omega)]
    rfl

theorem pow_bound {n m : ℕ} (h : n ≤ m) {x : ℝ} (h1 : 1 ≤ x) : x ^ n ≤ x ^ m := pow_le_pow_right₀ h1 h

/-- The magnitude of the terms of the `nu`-th derivative of a polynomial (coefficients with the highest power first) at distance `s`. -/
noncomputable def magnitude (k : ℕ) (a : ℕ → ℝ) (nu : ℕ) (s : ℝ) : ℝ := ∑ q ∈ Finset.range k, |a (k - 1 - q)| * (q.descFactorial nu : ℝ) * |s| ^ (q - nu)

/-- Terms of a derivative. -/
theorem deriv_terms (k nu : ℕ) (hk : nu < k) (a : ℕ → ℝ) (s : ℝ) :
    evalPoly k a nu s = evalPoly (k - nu) (fun i => a i * ((k - 1 - i).descFactorial nu : ℝ)) 0 s ∧
    magnitude k a nu s = ∑ p ∈ Finset.range (k - nu), |a (k - nu - 1 - p) * ((k - 1 - (k - nu - 1 - p)).descFactorial nu : ℝ)| * |s| ^ p := by
  have e1 : ∀ p < k - nu, k - nu - 1 - p = k - 1 - (nu + p) := fun p hp => by omega
  have e2 : ∀ p < k - nu, k - 1 - (k - nu - 1 - p) = nu + p := fun p hp => by omega
  constructor
  · unfold evalPoly
    have e0 : Finset.range k = Finset.range (nu + (k - nu)) := by rw [show nu + (k - nu) = k by omega]
    rw [e0, Finset.sum_range_add, Finset.sum_eq_zero, zero_add]
    · apply Finset.sum_congr rfl
      intro p hp
      rw [Finset.mem_range] at hp
      simp only
      rw [if_pos (by omega), if_pos (by omega), e2 p hp, e1 p hp, show nu + p - nu = p by omega]
      simp
    · intro q hq
      rw [Finset.mem_range] at hq
      rw [if_neg (by omega)]
  · unfold magnitude
    have e0 : Finset.range k = Finset.range (nu + (k - nu)) := by rw [show nu + (k - nu) = k by omega]
    rw [e0, Finset.sum_range_add, Finset.sum_eq_zero, zero_add]
    · apply Finset.sum_congr rfl
      intro p hp
      rw [Finset.mem_range] at hp
      rw [e2 p hp, e1 p hp, show nu + p - nu = p by omega, abs_mul, Nat.abs_cast]
    · intro q hq
      rw [Finset.mem_range] at hq
      rw [Nat.descFactorial_of_lt hq]
      simp

theorem near_self (x : ℝ) : Near x x |x| ((1 + uu) * |x| + tiny) := by
  refine (Near.exact x).mono ?_
  have := mul_nonneg uu_pos.le (abs_nonneg x)
  have := tiny_pos
  linarith

theorem desc_le {m nu : ℕ} (hm : m ≤ 15) (hn : nu ≤ 5) : (m.descFactorial nu : ℝ) ≤ 2 ^ 20 := by
  have : m.descFactorial nu ≤ m ^ nu := Nat.descFactorial_le_pow m nu
  have h2 : m ^ nu ≤ 15 ^ 5 := by
    calc m ^ nu ≤ 15 ^ nu := Nat.pow_le_pow_left hm nu
      _ ≤ 15 ^ 5 := Nat.pow_le_pow_right (by norm_num) hn
  have h3 : (m.descFactorial nu : ℝ) ≤ ((15 ^ 5 : ℕ) : ℝ) := by exact_mod_cast this.trans h2
  refine h3.trans (by norm_num)

set_option exponentiation.threshold 2000 in
/-- Evaluation of the derivative of a piecewise polynomial on a piece. -/
theorem derivativeF_near (R : Rounding) (p : PP) (k : ℕ) (hk : p.k = k) (hk1 : 1 ≤ k) (hk16 : k ≤ 16) (nu : ℕ) (hnu : nu ≤ 5) (j d : ℕ) (a : ℕ → ℝ) (ha : ∀ i, p.c i j d = a i) (hB : ∀ i < k, |a i| ≤ 2 ^ 80)
    (s sh : ℝ) (hs : |s| ≤ 2 ^ 24) (hsh : Near sh s |s| ((1 + uu) * |s| + tiny)) :
    ∃ k' ≤ 16, Near (evalPolyF R (p.derivativeF R nu).k (fun i => (p.derivativeF R nu).c i j d) 0 sh) (evalPoly k a nu s) (magnitude k a nu s) (rB (2 ^ 24) (2 ^ 100) (magnitude k a nu s) k') ∧
      magnitude k a nu s ≤ 2 ^ 100 * (2 * 2 ^ 24) ^ k' := by
  have hO : ∀ k' ≤ 16, 32 * (2 : ℝ) ^ 100 * (8 * 2 ^ 24) ^ k' ≤ 2 ^ 1000 := by
    intro k' hk'
    calc 32 * (2 : ℝ) ^ 100 * (8 * 2 ^ 24) ^ k' ≤ 32 * (2 : ℝ) ^ 100 * (8 * 2 ^ 24) ^ 16 := by
          apply mul_le_mul_of_nonneg_left _ (by norm_num)
          exact pow_le_pow_right₀ (by norm_num) hk'
      _ ≤ 2 ^ 1000 := by norm_num
  subst hk
  unfold PP.derivativeF
  by_cases h0 : nu = 0
  · subst h0
    rw [if_pos rfl]
    have hm : magnitude p.k a 0 s = ∑ q ∈ Finset.range p.k, |a (p.k - 1 - q)| * |s| ^ q := by
      unfold magnitude
      apply Finset.sum_congr rfl
      intro q _
      simp
    refine ⟨p.k, hk16, ?_, ?_⟩
    · rw [hm]
      have : (fun i => p.c i j d) = a := funext ha
      rw [this]
      exact evalPoly_near R (by norm_num) hs (by norm_num) p.k a a (fun i hi => (hB i hi).trans (by norm_num)) (fun i _ => near_self _) hsh (hO _ hk16)
    · rw [hm]
      exact terms_le (by norm_num) (abs_nonneg s) hs (by norm_num) (fun q => a (p.k - 1 - q)) p.k (fun q hq => (hB _ (by omega)).trans (by norm_num)) p.k le_rfl
  · rw [if_neg h0]
    by_cases hkn : p.k ≤ nu
    · rw [if_pos hkn]
      have e1 : evalPoly p.k a nu s = 0 := by
        unfold evalPoly
        apply Finset.sum_eq_zero
        intro q hq
        rw [Finset.mem_range] at hq
        rw [if_neg (by omega)]
      have e2 : magnitude p.k a nu s = 0 := by
        unfold magnitude
        apply Finset.sum_eq_zero
        intro q hq
        rw [Finset.mem_range] at hq
        rw [Nat.descFactorial_of_lt (by omega)]
        simp
      refine ⟨1, by norm_num, ?_, ?_⟩
      · have := evalPoly_near R (by norm_num) hs (by norm_num) 1 (fun _ => 0) (fun _ => 0) (B := 2 ^ 100) (fun i hi => by simp) (fun i _ => near_self _) hsh (hO 1 (by norm_num))
        rw [e1, e2]
        simpa [evalPoly] using this
      · rw [e2]; positivity
    · rw [if_neg hkn]
      obtain ⟨e1, e2⟩ := deriv_terms p.k nu (by omega) a s
      have hc : ∀ i < p.k - nu, |a i * ((p.k - 1 - i).descFactorial nu : ℝ)| ≤ 2 ^ 100 := by
        intro i hi
        rw [abs_mul, Nat.abs_cast]
        calc |a i| * ((p.k - 1 - i).descFactorial nu : ℝ) ≤ 2 ^ 80 * 2 ^ 20 := mul_le_mul (hB i (by omega)) (desc_le (by omega) hnu) (by positivity) (by norm_num)
          _ = 2 ^ 100 := by norm_num
      refine ⟨p.k - nu, by omega, ?_, ?_⟩
      · rw [e1, e2]
        refine evalPoly_near R (by norm_num) hs (by norm_num) (p.k - nu) _ _ hc ?_ hsh (hO _ (by omega))
        intro i hi
        simp only
        rw [ha i]
        exact (Near.exact _).rnd R ((hc i hi).trans (by norm_num))
      · rw [e2]
        exact terms_le (by norm_num) (abs_nonneg s) hs (by norm_num) (fun q => a (p.k - nu - 1 - q) * ((p.k - 1 - (p.k - nu - 1 - q)).descFactorial nu : ℝ)) (p.k - nu) (fun q hq => hc _ (by omega)) (p.k - nu) le_rfl

theorem year_le {nu : ℕ} (h : nu ≤ 5) : (1 : ℝ) ≤ 365.25 ^ nu ∧ (365.25 : ℝ) ^ nu ≤ 2 ^ 43 := by
  refine ⟨one_le_pow₀ (by norm_num), ?_⟩
  calc (365.25 : ℝ) ^ nu ≤ 365.25 ^ 5 := pow_le_pow_right₀ (by norm_num) h
    _ ≤ 2 ^ 43 := by norm_num

set_option exponentiation.threshold 2000 in
/-- The scaled results are doubles. -/
theorem scaled_double (R : Rounding) {x y A : ℝ} {k' nu : ℕ} (hk' : k' ≤ 16) (hnu : nu ≤ 5) (h : Near x y A (rB (2 ^ 24) (2 ^ 100) A k')) (hA : A ≤ 2 ^ 100 * (2 * 2 ^ 24) ^ k') :
    IsDouble (R (x * 365.25 ^ nu)) := by
  obtain ⟨hD1, hD2⟩ := year_le hnu
  have hA0 := h.nonneg.1
  have hrle := rB_le (σ := 2 ^ 24) (B := 2 ^ 100) (by norm_num) (by norm_num) k' hA0 hA
  have hY : (8 * (2 : ℝ) ^ 24) ^ k' ≤ 2 ^ 432 := by
    calc (8 * (2 : ℝ) ^ 24) ^ k' ≤ (8 * 2 ^ 24) ^ 16 := pow_le_pow_right₀ (by norm_num) hk'
      _ = 2 ^ 432 := by norm_num
  have hD : Near ((365.25 : ℝ) ^ nu) (365.25 ^ nu) (365.25 ^ nu) (365.25 ^ nu) := ⟨by simp, by rw [abs_of_nonneg (by positivity)]⟩
  have hO : rB (2 ^ 24) (2 ^ 100) A k' * 365.25 ^ nu ≤ 2 ^ 1000 := by
    calc rB (2 ^ 24) (2 ^ 100) A k' * 365.25 ^ nu ≤ (4 * 2 ^ 100 * 2 ^ 432) * 2 ^ 43 := by
          apply mul_le_mul _ hD2 (by positivity) (by positivity)
          exact hrle.trans (mul_le_mul_of_nonneg_left hY (by norm_num))
      _ ≤ 2 ^ 1000 := by norm_num
  have hm := h.mul hD
  exact (R.nearest _ ((hm.abs_le).trans hO)).1

/-- A polynomial without terms. -/
theorem evalPolyF_zero (R : Rounding) (k : ℕ) (c : ℕ → ℝ) (hc : ∀ i < k, c i = 0) (nu : ℕ) (s : ℝ) : evalPolyF R k c nu s = 0 := by
  have hR0 : R 0 = 0 := Float.rnd_double R Float.double_zero (by rw [abs_zero]; positivity)
  have key : ∀ (l : List ℕ) (a : ℝ × ℝ), (∀ p ∈ l, p < k) → a.1 = 0 → (l.foldl (termF R k c nu s) a).1 = 0 := by
    intro l
    induction l with
    | nil => intro a _ h; exact h
    | cons p l ih =>
      intro a hl ha
      refine ih _ (fun q hq => hl q (List.mem_cons_of_mem _ hq)) ?_
      have hp := hl p (List.mem_cons_self)
      unfold termF
      split_ifs
      · exact ha
      all_goals
        show R (a.1 + R (R (c (k - 1 - p) * a.2) * (p.descFactorial nu : ℝ))) = 0
        rw [hc _ (by omega), ha, zero_mul, hR0, zero_mul, hR0, add_zero, hR0]
  exact key _ _ (fun p hp => List.mem_range.1 hp) rfl

set_option exponentiation.threshold 2000 in
/-- The factor for the unit. -/
theorem scaled_near (R : Rounding) {x y A : ℝ} {k' nu : ℕ} (hk' : k' ≤ 16) (hnu : nu ≤ 5) (h : Near x y A (rB (2 ^ 24) (2 ^ 100) A k')) (hA : A ≤ 2 ^ 100 * (2 * 2 ^ 24) ^ k') :
    |R (x * 365.25 ^ nu) - y * 365.25 ^ nu| ≤ 2 ^ (-47 : ℤ) * (A * 365.25 ^ nu) + 2 ^ (-400 : ℤ) := by
  obtain ⟨hD1, hD2⟩ := year_le hnu
  have hA0 := h.nonneg.1
  have hrle := rB_le (σ := 2 ^ 24) (B := 2 ^ 100) (by norm_num) (by norm_num) k' hA0 hA
  have hY : (8 * (2 : ℝ) ^ 24) ^ k' ≤ 2 ^ 432 := by
    calc (8 * (2 : ℝ) ^ 24) ^ k' ≤ (8 * 2 ^ 24) ^ 16 := pow_le_pow_right₀ (by norm_num) hk'
      _ = 2 ^ 432 := by norm_num
  have hY1 := one_le_Y (σ := (2 : ℝ) ^ 24) (by norm_num) k'
  have hD : Near ((365.25 : ℝ) ^ nu) (365.25 ^ nu) (365.25 ^ nu) (365.25 ^ nu) := ⟨by simp, by rw [abs_of_nonneg (by positivity)]⟩
  have hr0 : 0 ≤ rB (2 ^ 24) (2 ^ 100) A k' := hA0.trans h.nonneg.2
  have hO : rB (2 ^ 24) (2 ^ 100) A k' * 365.25 ^ nu ≤ 2 ^ 1000 := by
    calc rB (2 ^ 24) (2 ^ 100) A k' * 365.25 ^ nu ≤ (4 * 2 ^ 100 * 2 ^ 432) * 2 ^ 43 := by
          apply mul_le_mul _ hD2 (by positivity) (by positivity)
          exact hrle.trans (mul_le_mul_of_nonneg_left hY (by norm_num))
      _ ≤ 2 ^ 1000 := by norm_num
  have hn := ((h.mul hD).rnd R hO).err
  refine hn.trans ?_
  have hu := uu_pos
  have hv : (1 + uu) ^ (2 * k' + 4) ≤ 1 + 2 ^ (-47 : ℤ) := by
    calc (1 + uu) ^ (2 * k' + 4) ≤ (1 + uu) ^ 36 := pow_le_pow_right₀ (by linarith) (by omega)
      _ ≤ 1 + 2 ^ (-47 : ℤ) := by unfold uu; norm_num
  have hfloor : (1 + uu) * (tiny * (8 * 2 ^ 100 * ((8 * 2 ^ 24) ^ k' - 1)) * 365.25 ^ nu) + tiny ≤ 2 ^ (-400 : ℤ) := by
    have h1 : (1 + uu) ≤ 2 := by linarith [v_small]
    have h2 : tiny * (8 * 2 ^ 100 * ((8 * 2 ^ 24) ^ k' - 1)) * 365.25 ^ nu ≤ tiny * (8 * 2 ^ 100 * 2 ^ 432) * 2 ^ 43 := by
      apply mul_le_mul _ hD2 (by positivity) (by have := tiny_pos; positivity)
      apply mul_le_mul_of_nonneg_left _ tiny_pos.le
      apply mul_le_mul_of_nonneg_left _ (by norm_num)
      linarith
    have h3 : 0 ≤ tiny * (8 * 2 ^ 100 * ((8 * 2 ^ 24) ^ k' - 1)) * (365.25 : ℝ) ^ nu := by
      have := tiny_pos
      have : 0 ≤ (8 * (2 : ℝ) ^ 24) ^ k' - 1 := by linarith
      positivity
    calc (1 + uu) * (tiny * (8 * 2 ^ 100 * ((8 * 2 ^ 24) ^ k' - 1)) * 365.25 ^ nu) + tiny ≤ 2 * (tiny * (8 * 2 ^ 100 * 2 ^ 432) * 2 ^ 43) + tiny := by
          have := mul_le_mul h1 h2 h3 (by norm_num)
          linarith
      _ = tiny * (2 * (8 * 2 ^ 100 * 2 ^ 432) * 2 ^ 43 + 1) := by ring
      _ ≤ tiny * 2 ^ 600 := mul_le_mul_of_nonneg_left (by norm_num) tiny_pos.le
      _ = 2 ^ (-454 : ℤ) := by
          unfold tiny
          rw [show (2 : ℝ) ^ 600 = (2 : ℝ) ^ (600 : ℤ) from rfl, ← zpow_add₀ (by norm_num)]
          norm_num
      _ ≤ 2 ^ (-400 : ℤ) := zpow_le_zpow_right₀ (by norm_num) (by norm_num)
  have e : (1 + uu) * (rB (2 ^ 24) (2 ^ 100) A k' * 365.25 ^ nu) + tiny - A * 365.25 ^ nu =
      ((1 + uu) ^ (2 * k' + 4) - 1) * (A * 365.25 ^ nu) + ((1 + uu) * (tiny * (8 * 2 ^ 100 * ((8 * 2 ^ 24) ^ k' - 1)) * 365.25 ^ nu) + tiny) := by
    unfold rB
    rw [show 2 * k' + 4 = (2 * k' + 3) + 1 by omega, pow_succ]
    ring
  rw [e]
  have hAD : 0 ≤ A * (365.25 : ℝ) ^ nu := by positivity
  have := mul_le_mul_of_nonneg_right (show (1 + uu) ^ (2 * k' + 4) - 1 ≤ 2 ^ (-47 : ℤ) by linarith) hAD
  linarith

set_option exponentiation.threshold 2000 in
/-- **C88.** Accuracy of `synth_coeffs` in double precision, whatever the rule for ties: for orders up to 16, derivatives up to the fifth, coefficients up to
`2^80` in absolute value and times and break points within `2^23` days (about 23 000 years), a call for which the exact call succeeds returns rows of the same shape; and at each time inside
the model interval, whatever the other times and the extrapolation are, the difference from the exact value (the `deriv`-th derivative of the polynomial of the piece, per year)
is at most `2^-47` times the sum of the magnitudes of the terms of the polynomial, plus `2^-400`. -/
theorem C88_bound (R : Rounding) (hb : Proper b c) (times : List ℝ) (dim deriv : Option ℕ) (e : Option Extrap) (hne : times ≠ []) (hk : Known (option e) ∨ ¬ Outside b times)
    (hord : b.order ≤ 16) (hder : dOrder deriv ≤ 5) (hc : ∀ i j d, i < b.order → j + 1 < b.breaks.length → d < b.dim → |c i j d| ≤ 2 ^ 80)
    (hx : ∀ x ∈ b.breaks, |x| ≤ 2 ^ 23) :
    ∃ rows rowsF, b.synthCoeffs times dim deriv e = .ok (columns b dim, rows) ∧ b.synthCoeffsF R times dim deriv e = .ok (columns b dim, rowsF) ∧
      rows.length = times.length ∧ rowsF.length = times.length ∧
      ∀ (i : ℕ) (t : ℝ) (j : ℕ), times[i]? = some t → IsPiece b.breaks j t → t < last b.breaks →
        ∃ v vF : ℕ → ℝ, rows[i]? = some (some v) ∧ rowsF[i]? = some (some vF) ∧ ∀ d < b.dim,
          v d = iteratedDeriv (dOrder deriv) (piece b c j d) t * (365.25 : ℝ) ^ dOrder deriv ∧
          |vF d - v d| ≤ 2 ^ (-47 : ℤ) * (magnitude b.order (fun i => c i j d) (dOrder deriv) (t - b.breaks.getD j 0) * (365.25 : ℝ) ^ dOrder deriv) + 2 ^ (-400 : ℤ) ∧
          IsDouble (vF d) ∧ ((∀ i < b.order, c i j d = 0) → vF d = 0) := by
  obtain ⟨rows, hrows, hlen, hin⟩ := C26_inside hb times dim deriv e hne hk
  obtain ⟨r, hr, hcase⟩ := prepareF_cases R hb times (option e) hne hk
  have h1 := hb.order
  have h2 := hb.dim
  have h3 := hb.len
  have hF : b.synthCoeffsF R times dim deriv e = .ok (columns b dim, times.map fun t => ((r.1.derivativeF R (dOrder deriv)).evalF R r.2 0 t).map fun v d => R (v d * (365.25 : ℝ) ^ dOrder deriv)) := by
    unfold Base.synthCoeffsF
    rw [hb.coeffs]
    simp only
    rw [if_neg (by omega)]
    simp only [bind, Except.bind]
    rw [show prepareF R b c times (e.getD (.str "linear")) = .ok r from hr]
    cases dim <;> rfl
  refine ⟨rows, _, hrows, hF, hlen, by simp, ?_⟩
  intro i t j hi hj ht
  obtain ⟨v, hv, hvd⟩ := hin i t j hi hj ht
  obtain ⟨j', hj', hxj, hkj, hcj⟩ := interval_inside hb hcase r.2 j t hj ht
  refine ⟨v, fun d => R (evalPolyF R (r.1.derivativeF R (dOrder deriv)).k (fun i => (r.1.derivativeF R (dOrder deriv)).c i j' d) 0 (R (t - b.breaks.getD j 0)) * (365.25 : ℝ) ^ dOrder deriv), hv, ?_, ?_⟩
  · rw [row_get hi]
    unfold PP.evalF
    rw [derivativeF_x, hj', Option.map_some, Option.map_some, hxj]
  · intro d hd
    refine ⟨hvd d, ?_⟩
    obtain ⟨hj1, hj2⟩ := hj
    have hmem : ∀ m, m < b.breaks.length → |b.breaks.getD m 0| ≤ 2 ^ 23 := by
      intro m hm
      rw [List.getD_eq_getElem?_getD, List.getElem?_eq_getElem hm, Option.getD_some]
      exact hx _ (List.getElem_mem hm)
    have hs : |t - b.breaks.getD j 0| ≤ 2 ^ 24 := by
      have a1 := abs_le.1 (hmem j (by omega))
      have a2 := abs_le.1 (hmem (j + 1) hj1)
      have a3 : t ≤ 2 ^ 23 ∧ b.breaks.getD j 0 ≤ t := by
        rcases hj2 with h | h
        · exact ⟨h.2.le.trans a2.2, h.1⟩
        · exact absurd h.1 ht.ne
      rw [abs_le]
      constructor <;> linarith [a1.1, a1.2, a3.1, a3.2]
    obtain ⟨k', hk', hn, hm⟩ := derivativeF_near R r.1 b.order hkj (by omega) hord (dOrder deriv) hder j' d (fun i => c i j d) (fun i => hcj i d)
      (fun i hi => hc i j d hi hj1 hd) (t - b.breaks.getD j 0) (R (t - b.breaks.getD j 0)) hs ((Near.exact _).rnd R (hs.trans (by norm_num)))
    have hex : evalPoly b.order (fun i => c i j d) (dOrder deriv) (t - b.breaks.getD j 0) = iteratedDeriv (dOrder deriv) (piece b c j d) t := by
      rw [← evalPoly_iteratedDeriv]
      rfl
    rw [hex] at hn
    rw [hvd d]
    refine ⟨scaled_near R hk' hder hn hm, scaled_double R hk' hder hn hm, fun hz => ?_⟩
    have hR0 : R 0 = 0 := Float.rnd_double R Float.double_zero (by rw [abs_zero]; positivity)
    have hzero : ∀ i < (r.1.derivativeF R (dOrder deriv)).k, (r.1.derivativeF R (dOrder deriv)).c i j' d = 0 := by
      unfold PP.derivativeF
      split_ifs with g1 g2
      · intro i hi
        rw [hcj]
        exact hz i (hkj ▸ hi)
      · intro i _
        rfl
      · intro i hi
        have hi' : i < b.order := by
          rw [← hkj]
          have : i < r.1.k - dOrder deriv := hi
          omega
        show R (r.1.c i j' d * _) = 0
        rw [hcj, hz i hi', zero_mul, hR0]
    show R (evalPolyF R _ _ 0 _ * _) = 0
    rw [evalPolyF_zero R _ _ hzero, zero_mul, hR0]

/-- The loop at time difference 0. -/
theorem loop_zero (R : Rounding) (k : ℕ) (c : ℕ → ℝ) (hk : 0 < k) (hc : IsDouble (c (k - 1))) (hB : |c (k - 1)| ≤ 2 ^ 1000) (q : ℕ) (hq : q ≤ k) (hq0 : 0 < q) :
    ((List.range q).foldl (termF R k c 0 0) (0, 1)).1 = c (k - 1) ∧ (q < k → ((List.range q).foldl (termF R k c 0 0) (0, 1)).2 = 0) := by
  have hR := Float.rnd_double R hc hB
  have hR0 : R 0 = 0 := Float.rnd_double R Float.double_zero (by rw [abs_zero]; positivity)
  induction q with
  | zero => omega
  | succ q ih =>
    rw [List.range_succ, List.foldl_append, List.foldl_cons, List.foldl_nil]
    by_cases h0 : q = 0
    · subst h0
      constructor
      · simp [termF, hR]
      · intro h
        simp only [List.range_zero, List.foldl_nil, termF]
        rw [if_neg (by omega)]
        simp only
        rw [if_pos (by omega), mul_zero, hR0]
    · obtain ⟨i1, i2⟩ := ih (by omega) (by omega)
      have i2 := i2 (by omega)
      generalize (List.range q).foldl (termF R k c 0 0) (0, 1) = a at *
      constructor
      · simp [termF, i1, i2, hR0, hR]
      · intro h
        unfold termF
        rw [if_neg (by omega)]
        simp only
        rw [if_pos (by omega), mul_zero, hR0]

/-- **C88**, exact values: if the coefficients are doubles, then the value (no derivative) at the beginning of a piece is exactly the constant coefficient of the piece, without rounding error. -/
theorem C88_breaks (R : Rounding) (hb : Proper b c) (times : List ℝ) (dim : Option ℕ) (e : Option Extrap) (hne : times ≠ []) (hk : Known (option e) ∨ ¬ Outside b times)
    (hc : ∀ i j d, i < b.order → j + 1 < b.breaks.length → d < b.dim → IsDouble (c i j d) ∧ |c i j d| ≤ 2 ^ 1000) (i : ℕ) (j : ℕ) (hj : j + 1 < b.breaks.length)
    (hlt : b.breaks.getD j 0 < b.breaks.getD (j + 1) 0) (hi : times[i]? = some (b.breaks.getD j 0)) :
    ∃ rowsF vF, b.synthCoeffsF R times dim none e = .ok (columns b dim, rowsF) ∧ rowsF[i]? = some (some vF) ∧ ∀ d < b.dim, vF d = c (b.order - 1) j d := by
  obtain ⟨r, hr, hcase⟩ := prepareF_cases R hb times (option e) hne hk
  have h1 := hb.order
  have h2 := hb.dim
  have h3 := hb.len
  have hF : b.synthCoeffsF R times dim none e = .ok (columns b dim, times.map fun t => ((r.1.derivativeF R 0).evalF R r.2 0 t).map fun v d => R (v d * (365.25 : ℝ) ^ 0)) := by
    unfold Base.synthCoeffsF
    rw [hb.coeffs]
    simp only
    rw [if_neg (by omega)]
    simp only [bind, Except.bind]
    rw [show prepareF R b c times (e.getD (.str "linear")) = .ok r from hr]
    cases dim <;> rfl
  have hlast : b.breaks.getD j 0 < last b.breaks := by
    refine lt_of_lt_of_le hlt ?_
    have := hb.sorted
    by_cases h : j + 1 = b.breaks.length - 1
    · rw [h]
      unfold last
      rw [List.getLastD_eq_getLast?, List.getLast?_eq_getElem?, List.getD_eq_getElem?_getD]
    · have := hb.sorted (j + 1) (b.breaks.length - 1) (by omega) (by omega)
      refine this.trans (le_of_eq ?_)
      unfold last
      rw [List.getLastD_eq_getLast?, List.getLast?_eq_getElem?, List.getD_eq_getElem?_getD]
  obtain ⟨j', hj', hxj, hkj, hcj⟩ := interval_inside hb hcase r.2 j (b.breaks.getD j 0) ⟨hj, Or.inl ⟨le_rfl, hlt⟩⟩ hlast
  have hR0 : R 0 = 0 := Float.rnd_double R Float.double_zero (by rw [abs_zero]; positivity)
  refine ⟨_, fun d => R (evalPolyF R r.1.k (fun i => r.1.c i j' d) 0 0 * (365.25 : ℝ) ^ 0), hF, ?_, ?_⟩
  · rw [row_get hi]
    unfold PP.evalF
    rw [derivativeF_x, hj', Option.map_some, Option.map_some, hxj, sub_self, hR0]
    rfl
  · intro d hd
    simp only [hcj, hkj]
    obtain ⟨d1, d2⟩ := hc (b.order - 1) j d (by omega) hj hd
    have := (loop_zero R b.order (fun i => c i j d) h1 d1 d2 b.order le_rfl h1).1
    unfold evalPolyF
    rw [this, pow_zero, mul_one]
    exact Float.rnd_double R d1 d2

theorem prepareF_on (R : Rounding) (hb : Proper b c) (times : List ℝ) (e : Extrap) (hne : times ≠ []) (hout : Outside b times) (hk : Known e) (hpos : 0 < documentedOrder b.order e) :
    prepareF R b c times e = .ok (extended (pp b c) (extensionBinF R (pp b c) (documentedOrder b.order e).toNat (first b.breaks))
      (extensionBinF R (leftF R (pp b c) (documentedOrder b.order e).toNat) (documentedOrder b.order e).toNat (last b.breaks)), true) := by
  obtain ⟨lo, hi, ha, hiff⟩ := aminmax_outside times (first b.breaks) (last b.breaks) hne
  unfold prepareF
  simp only [ha, bind, Except.bind]
  rw [if_pos (hiff.2 hout), extrapKey_known _ _ hk]
  simp only
  rw [if_pos hpos]
  have hx := extendF_eq R (pp b c) hb.sorted hb.span (documentedOrder b.order e).toNat
  simp only [pp, bind, Except.bind] at hx
  revert hx
  cases extendSideF R { k := b.order, x := b.breaks, c } (documentedOrder b.order e).toNat (first b.breaks) with
  | error z => intro hx; cases hx
  | ok p1 =>
    simp only
    cases extendSideF R p1 (documentedOrder b.order e).toNat (last b.breaks) with
    | error z => intro hx; cases hx
    | ok p2 =>
      intro hx
      injection hx with hx
      rw [hx]
      rfl

theorem prepareF_plain (R : Rounding) (hb : Proper b c) (times : List ℝ) (e : Extrap) (hne : times ≠ []) (h : ¬ Outside b times ∨ (Known e ∧ ¬ 0 < documentedOrder b.order e)) :
    ∃ ext, prepareF R b c times e = .ok (pp b c, ext) := by
  obtain ⟨lo, hi, ha, hiff⟩ := aminmax_outside times (first b.breaks) (last b.breaks) hne
  unfold prepareF
  simp only [ha, bind, Except.bind]
  by_cases ho : Outside b times
  · obtain ⟨hk, hp⟩ := h.resolve_left (fun h => h ho)
    rw [if_pos (hiff.2 ho), extrapKey_known _ _ hk]
    simp only
    rw [if_neg hp]
    exact ⟨_, rfl⟩
  · rw [if_neg (fun hc => ho (hiff.1 hc))]
    exact ⟨_, rfl⟩

/-- The rows that the call returns. -/
theorem rowsF_of_prepare (R : Rounding) (hb : Proper b c) (times : List ℝ) (dim deriv : Option ℕ) (e : Option Extrap) {r : PP × Bool} (hr : prepareF R b c times (option e) = .ok r) :
    b.synthCoeffsF R times dim deriv e = .ok (columns b dim, times.map fun t => ((r.1.derivativeF R (dOrder deriv)).evalF R r.2 0 t).map fun v d => R (v d * (365.25 : ℝ) ^ dOrder deriv)) := by
  have h1 := hb.order
  have h2 := hb.dim
  have h3 := hb.len
  unfold Base.synthCoeffsF
  rw [hb.coeffs]
  simp only
  rw [if_neg (by omega)]
  simp only [bind, Except.bind]
  rw [show prepareF R b c times (e.getD (.str "linear")) = .ok r from hr]
  cases dim <;> rfl

/-- The loop for a polynomial of which only the constant coefficient is not zero, or at time difference 0. -/
theorem loop_const (R : Rounding) (k : ℕ) (c : ℕ → ℝ) (s : ℝ) (hk : 0 < k) (hz : (∀ i, i < k - 1 → c i = 0) ∨ s = 0) (hc : R (R (c (k - 1))) = R (c (k - 1))) :
    evalPolyF R k c 0 s = R (c (k - 1)) := by
  have hR0 : R 0 = 0 := Float.rnd_double R Float.double_zero (by rw [abs_zero]; positivity)
  have key : ∀ q ≤ k, 0 < q → ((List.range q).foldl (termF R k c 0 s) (0, 1)).1 = R (c (k - 1)) ∧ (q < k → s = 0 → ((List.range q).foldl (termF R k c 0 s) (0, 1)).2 = 0) := by
    intro q
    induction q with
    | zero => intro _ h; omega
    | succ q ih =>
      intro hq _
      rw [List.range_succ, List.foldl_append, List.foldl_cons, List.foldl_nil]
      by_cases h0 : q = 0
      · subst h0
        constructor
        · simp [termF, hc]
        · rintro h rfl
          simp only [List.range_zero, List.foldl_nil, termF]
          rw [if_neg (by omega)]
          simp only
          rw [if_pos (by omega), mul_zero, hR0]
      · obtain ⟨i1, i2⟩ := ih (by omega) (by omega)
        have i2 := i2 (by omega)
        generalize (List.range q).foldl (termF R k c 0 s) (0, 1) = a at *
        constructor
        · rcases hz with hz | hz
          · have hz' := hz (k - 1 - q) (by omega)
            simp [termF, i1, hz', hR0, hc]
          · simp [termF, i1, i2 hz, hR0, hc]
        · rintro h rfl
          unfold termF
          rw [if_neg (by omega)]
          simp only
          rw [if_pos (by omega), mul_zero, hR0]
  exact (key k le_rfl hk).1

theorem leftF_interval (R : Rounding) (hb : Proper b c) (key : ℕ) :
    findInterval (leftF R (pp b c) key).x true (last b.breaks) = some (b.breaks.length - 1) := by
  have hlen := hb.len
  have hne : b.breaks ≠ [] := by rintro h; rw [h] at hlen; simp at hlen
  have hs : Sorted (leftF R (pp b c) key).x := by
    intro i j hij hj
    simp only [leftF, pp, List.length_cons] at hj ⊢
    rcases Nat.eq_zero_or_pos j with rfl | hj0
    · obtain rfl : i = 0 := by omega
      exact le_rfl
    · obtain ⟨j, rfl⟩ : ∃ k, j = k + 1 := ⟨j - 1, by omega⟩
      rw [List.getD_cons_succ]
      rcases Nat.eq_zero_or_pos i with rfl | hi0
      · rw [List.getD_cons_zero, first_eq]
        exact hb.sorted 0 j (by omega) (by omega)
      · obtain ⟨i, rfl⟩ : ∃ k, i = k + 1 := ⟨i - 1, by omega⟩
        rw [List.getD_cons_succ]
        exact hb.sorted i j (by omega) (by omega)
  refine findInterval_piece _ hs true _ _ ⟨?_, Or.inr ⟨?_, ?_⟩⟩
  · simp only [leftF, pp, List.length_cons]; omega
  · simp only [leftF, pp]; rw [last_cons _ _ hne]
  · simp only [leftF, pp, List.length_cons]; omega

theorem extended_left_interval (hb : Proper b c) (l r : ℕ → ℕ → ℝ) (t : ℝ) (h : t < first b.breaks) :
    findInterval (extended (pp b c) l r).x true t = some 0 := by
  unfold findInterval
  have e : first (extended (pp b c) l r).x = first b.breaks := rfl
  rw [e, if_pos h]
  rfl

theorem extended_right_interval (hb : Proper b c) (l r : ℕ → ℕ → ℝ) (t : ℝ) (h : last b.breaks ≤ t) :
    findInterval (extended (pp b c) l r).x true t = some b.breaks.length ∧ (extended (pp b c) l r).x.getD b.breaks.length 0 = last b.breaks := by
  have hlen := hb.len
  have hne : b.breaks ≠ [] := by rintro h; rw [h] at hlen; simp at hlen
  have hl : last (extended (pp b c) l r).x = last b.breaks := by
    simp only [extended, pp]
    rw [last_cons _ _ (by simp), last_append]
  constructor
  · unfold findInterval
    have e : first (extended (pp b c) l r).x = first b.breaks := rfl
    have hn : (extended (pp b c) l r).x.length - 2 = b.breaks.length := by simp [extended, pp]
    rw [e, hl, if_neg (not_lt.2 (hb.span.le.trans h)), hn, if_pos rfl]
    by_cases a : last b.breaks < t
    · rw [if_pos a]
    · rw [if_neg a, if_pos (le_antisymm (not_lt.1 a) h)]
  · rw [last_eq _ hne]
    have := extended_getD b.breaks (first b.breaks) (last b.breaks) (b.breaks.length - 1) (by omega)
    rw [show b.breaks.length - 1 + 1 = b.breaks.length by omega] at this
    exact this

set_option exponentiation.threshold 2000 in
/-- **C88**, `'constant'` extrapolation in double precision: every time outside the model interval, near or far, gets exactly the double that is returned for the nearer end of the interval itself (whatever
else is in that call and however it extrapolates), and time derivatives there are exactly zero. -/
theorem C88_constant (R : Rounding) (hb : Proper b c) (times times' : List ℝ) (dim deriv : Option ℕ) (e' : Option Extrap) (hk' : Known (option e') ∨ ¬ Outside b times')
    (hord : b.order ≤ 16) (hc : ∀ i j d, i < b.order → j + 1 < b.breaks.length → d < b.dim → |c i j d| ≤ 2 ^ 80)
    (hx : ∀ x ∈ b.breaks, |x| ≤ 2 ^ 23) (i i' : ℕ) (t x : ℝ) (j : ℕ) (hi : times[i]? = some t) (hn : NearEnd b t x j) (hi' : times'[i']? = some x) :
    ∃ rows v rows' v', b.synthCoeffsF R times dim deriv (some (.str "constant")) = .ok (columns b dim, rows) ∧ rows[i]? = some (some v) ∧
      b.synthCoeffsF R times' dim none e' = .ok (columns b dim, rows') ∧ rows'[i']? = some (some v') ∧
      ∀ d < b.dim, (dOrder deriv = 0 → v d = v' d) ∧ (0 < dOrder deriv → v d = 0) := by
  have hne : times ≠ [] := by rintro rfl; simp at hi
  have hne' : times' ≠ [] := by rintro rfl; simp at hi'
  have h1 := hb.order
  have hlen := hb.len
  have hneb : b.breaks ≠ [] := by rintro h; rw [h] at hlen; simp at hlen
  have hout : Outside b times := by
    refine ⟨t, List.mem_of_getElem? hi, ?_⟩
    rcases hn with h | h
    · exact Or.inl h.1
    · exact Or.inr h.1
  have hkey : documentedOrder b.order (.str "constant") = 1 := by
    show min 1 (b.order : ℤ) = 1
    omega
  have hpj : IsPiece b.breaks j x := by
    rcases hn with ⟨-, -, h⟩ | ⟨-, rfl, rfl⟩
    · exact h
    · exact isPiece_last hb
  have hj1 := hpj.1
  have hR0 : R 0 = 0 := Float.rnd_double R Float.double_zero (by rw [abs_zero]; positivity)
  -- the value at the end
  set w : ℕ → ℝ := fun d => evalPolyF R b.order (fun i => c i j d) 0 (R (x - b.breaks.getD j 0)) with hw
  have hwd : ∀ d < b.dim, R (R (w d)) = R (w d) := by
    intro d hd
    have hmem : ∀ m, m < b.breaks.length → |b.breaks.getD m 0| ≤ 2 ^ 23 := by
      intro m hm
      rw [List.getD_eq_getElem?_getD, List.getElem?_eq_getElem hm, Option.getD_some]
      exact hx _ (List.getElem_mem hm)
    have hs : |x - b.breaks.getD j 0| ≤ 2 ^ 24 := by
      have a1 := abs_le.1 (hmem j (by omega))
      have a2 : |x| ≤ 2 ^ 23 := by
        rcases hn with ⟨-, rfl, -⟩ | ⟨-, rfl, -⟩
        · rw [first_eq]; exact hmem 0 (by omega)
        · rw [last_eq _ hneb]; exact hmem _ (by omega)
      have a2 := abs_le.1 a2
      rw [abs_le]
      constructor <;> linarith [a1.1, a1.2, a2.1, a2.2]
    obtain ⟨k', hk', hnear, hm⟩ := derivativeF_near R (pp b c) b.order rfl (by omega) hord 0 (by omega) j d (fun i => c i j d) (fun i => rfl)
      (fun i hi => hc i j d hi hj1 hd) (x - b.breaks.getD j 0) (R (x - b.breaks.getD j 0)) hs ((Near.exact _).rnd R (hs.trans (by norm_num)))
    have hY : (8 * (2 : ℝ) ^ 24) ^ k' ≤ 2 ^ 432 := by
      calc (8 * (2 : ℝ) ^ 24) ^ k' ≤ (8 * 2 ^ 24) ^ 16 := pow_le_pow_right₀ (by norm_num) hk'
        _ = 2 ^ 432 := by norm_num
    have hrle := rB_le (σ := 2 ^ 24) (B := 2 ^ 100) (by norm_num) (by norm_num) k' hnear.nonneg.1 hm
    have hwb : |w d| ≤ 2 ^ 1000 := by
      refine hnear.abs_le.trans (hrle.trans ((mul_le_mul_of_nonneg_left hY (by norm_num)).trans (by norm_num)))
    have hd2 : IsDouble ((2 : ℝ) ^ 1000) := by
      have := Float.double_of (m := 2 ^ 52) (e := 948) (by norm_num) (by norm_num) (by norm_num)
      have e : ((2 ^ 52 : ℤ) : ℝ) * (2 : ℝ) ^ (948 : ℤ) = 2 ^ 1000 := by
        rw [show (2 : ℝ) ^ (948 : ℤ) = (2 : ℝ) ^ (948 : ℕ) from rfl, Int.cast_pow, Int.cast_ofNat, ← pow_add]
      rw [e] at this
      exact this
    have hp1 : |(2 : ℝ) ^ 1000| ≤ 2 ^ 1000 := by rw [abs_of_nonneg (by positivity)]
    have hm1 : |-(2 : ℝ) ^ 1000| ≤ 2 ^ 1000 := by rw [abs_neg]; exact hp1
    have hup := Float.rnd_mono R hwb hp1 (abs_le.1 hwb).2
    have hlo := Float.rnd_mono R hm1 hwb (abs_le.1 hwb).1
    rw [Float.rnd_double R hd2 hp1] at hup
    rw [Float.rnd_double R (Float.double_neg hd2) hm1] at hlo
    exact Float.rnd_double R (R.nearest _ hwb).1 (abs_le.2 ⟨hlo, hup⟩)
  -- the added pieces
  have hbl : ∀ key : ℕ, 0 < key → x = first b.breaks → ∀ d, extensionBinF R (pp b c) key (first b.breaks) (b.order - 1) d = w d := by
    intro key hkey hxf d
    unfold extensionBinF
    simp only
    rw [if_pos ⟨show b.order - 1 < b.order by omega, show b.order - 1 - (b.order - 1) < key by omega⟩]
    have hev : (pp b c).evalF R true (b.order - 1 - (b.order - 1)) (first b.breaks) = some w := by
      unfold PP.evalF
      rw [← hxf, show (pp b c).x = b.breaks from rfl, findInterval_piece _ hb.sorted true j x hpj, Option.map_some, Nat.sub_self]
      rfl
    rw [show (pp b c).k = b.order from rfl, hev]
  have hbr : ∀ key : ℕ, 0 < key → x = last b.breaks → ∀ d, extensionBinF R (leftF R (pp b c) key) key (last b.breaks) (b.order - 1) d = w d := by
    intro key hkey hxl d
    have hjl : j = b.breaks.length - 2 := by
      rcases hn with ⟨-, h, -⟩ | ⟨-, -, h⟩
      · exact absurd (h.symm.trans hxl) hb.span.ne
      · exact h
    unfold extensionBinF
    simp only
    rw [if_pos ⟨show b.order - 1 < b.order by omega, show b.order - 1 - (b.order - 1) < key by omega⟩]
    have hev : (leftF R (pp b c) key).evalF R true (b.order - 1 - (b.order - 1)) (last b.breaks) = some w := by
      unfold PP.evalF
      rw [leftF_interval R hb key, Option.map_some, Nat.sub_self, hw]
      congr 1
      funext d
      have e1 : (leftF R (pp b c) key).x.getD (b.breaks.length - 1) 0 = b.breaks.getD j 0 := by
        simp only [leftF, pp]
        rw [hjl, show b.breaks.length - 1 = b.breaks.length - 2 + 1 by omega, List.getD_cons_succ]
      have e2 : (fun i => (leftF R (pp b c) key).c i (b.breaks.length - 1) d) = fun i => c i j d := by
        funext i
        simp only [leftF, pp]
        rw [if_neg (by omega), hjl, show b.breaks.length - 1 - 1 = b.breaks.length - 2 by omega]
      rw [e1, e2, hxl]
      rfl
    rw [show (leftF R (pp b c) key).k = b.order from rfl, hev]
  have hbz : ∀ (p : PP) (y : ℝ) i d, p.k = b.order → i < b.order - 1 → extensionBinF R p 1 y i d = 0 := by
    intro p y i d hp hi
    unfold extensionBinF
    simp only
    rw [if_neg (by omega)]
  -- the call at the end
  have hend : ∃ rows' v', b.synthCoeffsF R times' dim none e' = .ok (columns b dim, rows') ∧ rows'[i']? = some (some v') ∧ ∀ d < b.dim, v' d = R (w d) := by
    by_cases hpl : ¬ Outside b times' ∨ (Known (option e') ∧ ¬ 0 < documentedOrder b.order (option e'))
    · obtain ⟨ext, hr⟩ := prepareF_plain R hb times' (option e') hne' hpl
      refine ⟨_, fun d => R (w d * (365.25 : ℝ) ^ 0), rowsF_of_prepare R hb times' dim none e' hr, ?_, fun d hd => by simp only [pow_zero, mul_one]⟩
      rw [row_get hi']
      have : ((pp b c).derivativeF R (dOrder none)).evalF R ext 0 x = some w := by
        show ((pp b c).derivativeF R 0).evalF R ext 0 x = some w
        unfold PP.evalF
        rw [derivativeF_x, show (pp b c).x = b.breaks from rfl, findInterval_piece _ hb.sorted ext j x hpj, Option.map_some]
        rfl
      simp only [this]
      rfl
    · rw [not_or, not_not] at hpl
      obtain ⟨ho, hpl⟩ := hpl
      have hkn := hk'.resolve_right (fun h => h ho)
      have hpos : 0 < documentedOrder b.order (option e') := by
        by_contra hc
        exact hpl ⟨hkn, hc⟩
      have hr := prepareF_on R hb times' (option e') hne' ho hkn hpos
      have hF := rowsF_of_prepare R hb times' dim none e' hr
      rcases hn with ⟨-, hxf, -⟩ | ⟨-, hxl, hjl⟩
      · obtain ⟨j', hj', hxj, hkj, hcj⟩ := interval_inside hb (.inr ⟨_, _, rfl⟩) true j x hpj (by rw [hxf]; exact hb.span)
        refine ⟨_, fun d => R (w d * (365.25 : ℝ) ^ 0), hF, ?_, fun d hd => by simp only [pow_zero, mul_one]⟩
        rw [row_get hi']
        have : (PP.derivativeF R (extended (pp b c) (extensionBinF R (pp b c) (documentedOrder b.order (option e')).toNat (first b.breaks))
            (extensionBinF R (leftF R (pp b c) (documentedOrder b.order (option e')).toNat) (documentedOrder b.order (option e')).toNat (last b.breaks))) 0).evalF R true 0 x = some w := by
          unfold PP.evalF
          rw [derivativeF_x, hj', Option.map_some, hxj]
          congr 1
          funext d
          rw [hw]
          simp only [PP.derivativeF, if_true, hkj, hcj]
        simp only
        rw [show dOrder none = 0 from rfl, this]
        rfl
      · obtain ⟨hj', hxj⟩ := extended_right_interval hb (extensionBinF R (pp b c) (documentedOrder b.order (option e')).toNat (first b.breaks))
            (extensionBinF R (leftF R (pp b c) (documentedOrder b.order (option e')).toNat) (documentedOrder b.order (option e')).toNat (last b.breaks)) x (le_of_eq hxl.symm)
        refine ⟨_, fun d => R (evalPolyF R b.order (fun i => extensionBinF R (leftF R (pp b c) (documentedOrder b.order (option e')).toNat) (documentedOrder b.order (option e')).toNat (last b.breaks) i d) 0 0 * (365.25 : ℝ) ^ 0), hF, ?_, ?_⟩
        · rw [row_get hi']
          simp only
          unfold PP.evalF
          rw [derivativeF_x, hj', Option.map_some, Option.map_some, hxj, hxl, sub_self, hR0]
          congr 2
          funext d
          simp only [PP.derivativeF, dOrder, Option.getD_none, if_true, extended]
          rw [show (pp b c).x = b.breaks from rfl, show (pp b c).k = b.order from rfl]
          simp only [lt_irrefl, if_false, if_neg (show ¬ b.breaks.length = 0 by omega)]
        · intro d hd
          have hbin := hbr (documentedOrder b.order (option e')).toNat (by omega) hxl d
          simp only
          rw [loop_const R b.order _ 0 h1 (Or.inr rfl) (by rw [hbin]; exact hwd d hd), hbin, pow_zero, mul_one, hwd d hd]
  obtain ⟨rows', v', e1, e2, e3⟩ := hend
  have hp := prepareF_on R hb times (.str "constant") hne hout (by simp [Known]) (by rw [hkey]; norm_num)
  rw [hkey] at hp
  have hF := rowsF_of_prepare R hb times dim deriv (some (.str "constant")) hp
  -- the polynomial outside
  obtain ⟨bin, j', hj', hxj, hcj, hbw, hbz'⟩ : ∃ (bin : ℕ → ℕ → ℝ) (j' : ℕ), findInterval (extended (pp b c) (extensionBinF R (pp b c) 1 (first b.breaks))
      (extensionBinF R (leftF R (pp b c) 1) 1 (last b.breaks))).x true t = some j' ∧ True ∧
      (∀ i d, (extended (pp b c) (extensionBinF R (pp b c) 1 (first b.breaks)) (extensionBinF R (leftF R (pp b c) 1) 1 (last b.breaks))).c i j' d = bin i d) ∧
      (∀ d, bin (b.order - 1) d = w d) ∧ (∀ i d, i < b.order - 1 → bin i d = 0) := by
    rcases hn with ⟨ht, hxf, -⟩ | ⟨ht, hxl, hjl⟩
    · refine ⟨extensionBinF R (pp b c) 1 (first b.breaks), 0, extended_left_interval hb _ _ t ht, trivial, ?_, ?_, ?_⟩
      · intro i d; rfl
      · exact fun d => hbl 1 (by norm_num) hxf d
      · exact fun i d hi => hbz _ _ i d rfl hi
    · refine ⟨extensionBinF R (leftF R (pp b c) 1) 1 (last b.breaks), b.breaks.length, (extended_right_interval hb _ _ t ht.le).1, trivial, ?_, ?_, ?_⟩
      · intro i d
        simp only [extended]
        rw [show (pp b c).x = b.breaks from rfl, if_neg (by omega), if_neg (lt_irrefl _)]
      · exact fun d => hbr 1 (by norm_num) hxl d
      · exact fun i d hi => hbz _ _ i d rfl hi
  set P := extended (pp b c) (extensionBinF R (pp b c) 1 (first b.breaks)) (extensionBinF R (leftF R (pp b c) 1) 1 (last b.breaks)) with hP
  have hPk : P.k = b.order := rfl
  refine ⟨_, fun d => R (evalPolyF R (P.derivativeF R (dOrder deriv)).k (fun i => (P.derivativeF R (dOrder deriv)).c i j' d) 0 (R (t - P.x.getD j' 0)) * (365.25 : ℝ) ^ dOrder deriv),
    rows', v', hF, ?_, e1, e2, ?_⟩
  · rw [row_get hi]
    simp only [Int.toNat_one]
    unfold PP.evalF
    rw [derivativeF_x, ← hP, hj', Option.map_some, Option.map_some]
  · intro d hd
    constructor
    · intro h0
      rw [h0, e3 d hd]
      simp only [PP.derivativeF, if_true, hcj, hPk]
      rw [loop_const R b.order (fun i => bin i d) _ h1 (Or.inl fun i hi => hbz' i d hi) (by rw [hbw]; exact hwd d hd), hbw, pow_zero, mul_one, hwd d hd]
    · intro h0
      have hz : evalPolyF R (P.derivativeF R (dOrder deriv)).k (fun i => (P.derivativeF R (dOrder deriv)).c i j' d) 0 (R (t - P.x.getD j' 0)) = 0 := by
        have hall : ∀ i < (P.derivativeF R (dOrder deriv)).k, (P.derivativeF R (dOrder deriv)).c i j' d = 0 := by
          intro i hi
          unfold PP.derivativeF at hi ⊢
          rw [if_neg (by omega)] at hi ⊢
          by_cases hk : P.k ≤ dOrder deriv
          · rw [if_pos hk]
          · rw [if_neg hk] at hi ⊢
            simp only at hi ⊢
            rw [hcj, hbz' i d (by omega), zero_mul, hR0]
        have hk0 : 0 < (P.derivativeF R (dOrder deriv)).k := by
          unfold PP.derivativeF
          rw [if_neg (by omega)]
          split_ifs with hk
          · exact Nat.one_pos
          · simp only; omega
        have hc0 := hall ((P.derivativeF R (dOrder deriv)).k - 1) (by omega)
        rw [loop_const R _ _ _ hk0 (Or.inl fun i hi => hall i (by omega)) (by rw [hc0, hR0, hR0]), hc0, hR0]
      simp only [hz, zero_mul, hR0]

end

end ChaosMagPy.PPoly
