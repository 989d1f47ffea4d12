import Verif.Model.ElemArr
import Verif.Spec.Elementwise
import Verif.Lemmas.CoordArr
/-! Array expressions element by element: shapes and values. -/
namespace ChaosMagPy.ElemArr
open ChaosMagPy.Synth (Error)
open ChaosMagPy.NumPy ChaosMagPy.CoordArr ChaosMagPy.Spec

/-- The shape that results from broadcasting is the least one into which all fit. -/
theorem broadcast_iff (l : List (List ℕ)) (G : List ℕ) : broadcast l = some G ↔ (∀ s ∈ l, Into s G) ∧ ∀ T, (∀ s ∈ l, Into s T) → Into G T := by
  constructor
  · intro h
    refine ⟨broadcast_into h, fun T hT => ?_⟩
    obtain ⟨r, hr, h2⟩ := broadcast_of_into hT
    rw [h] at hr
    cases hr
    exact h2
  · rintro ⟨h1, h2⟩
    obtain ⟨r, hr, h3⟩ := broadcast_of_into h1
    rw [hr, into_antisymm h3 (h2 r (broadcast_into hr))]

theorem broadcast_none (l : List (List ℕ)) : broadcast l = none ↔ ∀ T, ¬ ∀ s ∈ l, Into s T := by
  constructor
  · intro h T hT
    obtain ⟨r, hr, -⟩ := broadcast_of_into hT
    rw [h] at hr
    cases hr
  · intro h
    cases hb : broadcast l with
    | none => rfl
    | some G => exact (h G (broadcast_into hb)).elim

theorem broadcast_eq {l l' : List (List ℕ)} (h : ∀ T, (∀ s ∈ l, Into s T) ↔ ∀ s ∈ l', Into s T) : broadcast l = broadcast l' := by
  cases hb : broadcast l with
  | none =>
    symm
    rw [broadcast_none] at hb ⊢
    intro T hT
    exact hb T ((h T).2 hT)
  | some G =>
    symm
    rw [broadcast_iff] at hb ⊢
    exact ⟨(h G).1 hb.1, fun T hT => hb.2 T ((h T).2 hT)⟩

theorem broadcast_set {l l' : List (List ℕ)} (h : ∀ s, s ∈ l ↔ s ∈ l') : broadcast l = broadcast l' :=
  broadcast_eq fun T => ⟨fun k s hs => k s ((h s).2 hs), fun k s hs => k s ((h s).1 hs)⟩

theorem broadcast_append (l l' : List (List ℕ)) : broadcast (l ++ l') = (broadcast l).bind fun r => (broadcast l').bind fun t => bcast r t := by
  cases h1 : broadcast l with
  | none =>
    show broadcast (l ++ l') = none
    rw [broadcast_none] at h1 ⊢
    exact fun T hT => h1 T fun s hs => hT s (List.mem_append_left _ hs)
  | some r =>
    cases h2 : broadcast l' with
    | none =>
      rw [broadcast_none] at h2
      show broadcast (l ++ l') = none
      rw [broadcast_none]
      exact fun T hT => h2 T fun s hs => hT s (List.mem_append_right _ hs)
    | some t =>
      show broadcast (l ++ l') = bcast r t
      rw [broadcast_iff] at h1 h2
      cases h3 : bcast r t with
      | none =>
        rw [broadcast_none]
        intro T hT
        obtain ⟨q, hq, -⟩ := bcast_of_into (h1.2 T fun s hs => hT s (List.mem_append_left _ hs)) (h2.2 T fun s hs => hT s (List.mem_append_right _ hs))
        rw [h3] at hq
        cases hq
      | some q =>
        rw [broadcast_iff]
        constructor
        · intro s hs
          rcases List.mem_append.1 hs with h | h
          · exact into_trans (h1.1 s h) (bcast_into h3).1
          · exact into_trans (h2.1 s h) (bcast_into h3).2
        · intro T hT
          exact bcast_least h3 (h1.2 T fun s hs => hT s (List.mem_append_left _ hs)) (h2.2 T fun s hs => hT s (List.mem_append_right _ hs))

theorem broadcast_single (s : List ℕ) : broadcast [s] = some s := by
  rw [broadcast_iff]
  exact ⟨fun t ht => by rw [List.mem_singleton.1 ht]; exact into_refl _, fun T hT => hT s (by simp)⟩

/-- The expression raises ValueError if the shapes do not fit together; else it gives an array of the broadcast shape with the value `f i` where `V i`. -/
def Elem (V : List ℕ → Prop) (l : List (List ℕ)) (x : NE) (f : List ℕ → ℝ) : Prop :=
  (∀ G, broadcast l = some G → ∃ a, x.run = .ok a ∧ a.shape = G ∧ ∀ i, V i → a.at i = some (f i)) ∧ (broadcast l = none → x.run = .error .valueError)

theorem Elem.op2 {V : List ℕ → Prop} {l l' : List (List ℕ)} {x y : NE} {f g h : List ℕ → ℝ} (op : Num → Num → Num) (hx : Elem V l x f) (hy : Elem V l' y g)
    (hop : ∀ i, V i → op (some (f i)) (some (g i)) = some (h i)) : Elem V (l ++ l') ⟨lift2 op x.run y.run⟩ h := by
  have hb := broadcast_append l l'
  cases h1 : broadcast l with
  | none =>
    rw [h1] at hb
    refine ⟨fun G hG => ?_, fun _ => ?_⟩
    · rw [hb] at hG; cases hG
    · show lift2 op x.run y.run = _
      rw [hx.2 h1]
      rfl
  | some r =>
    obtain ⟨a, ha, hs, hv⟩ := hx.1 r h1
    cases h2 : broadcast l' with
    | none =>
      rw [h1, h2] at hb
      refine ⟨fun G hG => ?_, fun _ => ?_⟩
      · rw [hb] at hG; cases hG
      · show lift2 op x.run y.run = _
        rw [hy.2 h2, ha]
        rfl
    | some t =>
      obtain ⟨b, hb', hs', hv'⟩ := hy.1 t h2
      rw [h1, h2] at hb
      replace hb : broadcast (l ++ l') = bcast r t := hb
      have hl : lift2 op x.run y.run = map2 op a b := by rw [ha, hb']; rfl
      refine ⟨fun G hG => ?_, fun hn => ?_⟩
      · rw [hG] at hb
        obtain ⟨i1, i2⟩ := bcast_into hb.symm
        obtain ⟨c, hc, -, hcv⟩ := map2_into op a b G (by rw [hs]; exact i1) (by rw [hs']; exact i2)
        refine ⟨c, by show lift2 op x.run y.run = _; rw [hl, hc], ?_, fun i hi => by rw [hcv, hv i hi, hv' i hi, hop i hi]⟩
        unfold map2 at hc
        rw [hs, hs', ← hb] at hc
        cases hc
        rfl
      · show lift2 op x.run y.run = _
        rw [hl]
        unfold map2
        rw [hs, hs', ← hb, hn]

section
variable {V : List ℕ → Prop} {l l' : List (List ℕ)} {x y : NE} {f g : List ℕ → ℝ}

theorem Elem.mul (hx : Elem V l x f) (hy : Elem V l' y g) : Elem V (l ++ l') (x * y) fun i => f i * g i := hx.op2 _ hy fun _ _ => rfl
theorem Elem.add (hx : Elem V l x f) (hy : Elem V l' y g) : Elem V (l ++ l') (x + y) fun i => f i + g i := hx.op2 _ hy fun _ _ => rfl
theorem Elem.sub (hx : Elem V l x f) (hy : Elem V l' y g) : Elem V (l ++ l') (x - y) fun i => f i - g i := hx.op2 _ hy fun _ _ => rfl
theorem Elem.atan2 (hx : Elem V l x f) (hy : Elem V l' y g) : Elem V (l ++ l') (atan2 x y) fun i => Coord.arctan2 (f i) (g i) := hx.op2 _ hy fun _ _ => rfl
theorem Elem.div (hx : Elem V l x f) (hy : Elem V l' y g) (h0 : ∀ i, V i → g i ≠ 0) : Elem V (l ++ l') (x / y) fun i => f i / g i :=
  hx.op2 _ hy fun i hi => by
    show (if g i = 0 then none else some (f i / g i)) = _
    rw [if_neg (h0 i hi)]

theorem Elem.part (p : ℝ → Num) (hx : Elem V l x f) (h : ∀ i, V i → p (f i) = some (g i)) : Elem V l (part p x) g := by
  refine ⟨fun G hG => ?_, fun hn => ?_⟩
  · obtain ⟨a, h1, h2, h3⟩ := hx.1 G hG
    refine ⟨a.map fun o => o.bind p, by unfold ElemArr.part; rw [h1]; rfl, h2, fun i hi => ?_⟩
    show (a.at i).bind p = _
    rw [h3 i hi]
    exact h i hi
  · unfold ElemArr.part
    rw [hx.2 hn]
    rfl

theorem Elem.app (p : ℝ → ℝ) (hx : Elem V l x f) : Elem V l (NE.app p x) fun i => p (f i) := by
  refine ⟨fun G hG => ?_, fun hn => ?_⟩
  · obtain ⟨a, h1, h2, h3⟩ := hx.1 G hG
    refine ⟨a.map (Option.map p), by unfold NE.app; rw [h1]; rfl, h2, fun i hi => ?_⟩
    show Option.map p (a.at i) = _
    rw [h3 i hi]
    rfl
  · unfold NE.app
    rw [hx.2 hn]
    rfl

theorem Elem.sqrt (hx : Elem V l x f) (h : ∀ i, V i → 0 ≤ f i) : Elem V l (ElemArr.part nsqrt x) fun i => Real.sqrt (f i) :=
  hx.part nsqrt fun i hi => by unfold nsqrt; rw [if_neg (not_lt.2 (h i hi))]

theorem Elem.cbrt (hx : Elem V l x f) (h : ∀ i, V i → 0 ≤ f i) : Elem V l (ElemArr.part ncbrt x) fun i => f i ^ ((1 : ℝ) / 3) :=
  hx.part ncbrt fun i hi => by unfold ncbrt; rw [if_neg (not_lt.2 (h i hi))]

theorem Elem.arccos (hx : Elem V l x f) (h : ∀ i, V i → -1 ≤ f i ∧ f i ≤ 1) : Elem V l (ElemArr.part narccos x) fun i => Real.arccos (f i) :=
  hx.part narccos fun i hi => by
    unfold narccos
    rw [if_neg (by intro hc; rcases hc with hc | hc <;> linarith [(h i hi).1, (h i hi).2])]

theorem Elem.leaf (a : Arr Num) (h : ∀ i, V i → a.at i = some (f i)) : Elem V [a.shape] (ne a) f := by
  refine ⟨fun G hG => ⟨a, rfl, ?_, h⟩, fun hn => ?_⟩
  · rw [broadcast_single] at hG
    cases hG
    rfl
  · rw [broadcast_single] at hn
    cases hn

theorem Elem.arr (a : Arr ℝ) : Elem V [a.shape] (arr a) fun i => a.at i := Elem.leaf (ofReal a) fun _ _ => rfl
theorem Elem.num (c : ℝ) : Elem V [[]] (num c) fun _ => c := Elem.leaf (scalar (some c)) fun _ _ => rfl

theorem Elem.src (hx : Elem V l x f) (h : broadcast l = broadcast l') : Elem V l' x f :=
  ⟨fun G hG => hx.1 G (h.trans hG), fun hn => hx.2 (h.trans hn)⟩

theorem Elem.congr (hx : Elem V l x f) (h : ∀ i, V i → f i = g i) : Elem V l x g :=
  ⟨fun G hG => by
    obtain ⟨a, h1, h2, h3⟩ := hx.1 G hG
    exact ⟨a, h1, h2, fun i hi => by rw [h3 i hi, h i hi]⟩, hx.2⟩

end

/-- Shapes that can be dropped: those without axes. -/
theorem broadcast_drop {l l' : List (List ℕ)} (h1 : ∀ s ∈ l, s = [] ∨ s ∈ l') (h2 : ∀ s ∈ l', s = [] ∨ s ∈ l) : broadcast l = broadcast l' := by
  apply broadcast_eq
  intro T
  constructor
  · intro k s hs
    rcases h2 s hs with rfl | h
    · exact into_nil T
    · exact k s h
  · intro k s hs
    rcases h1 s hs with rfl | h
    · exact into_nil T
    · exact k s h

/-- Result of a call. -/
theorem Elem.holds {V : List ℕ → Prop} {l : List (List ℕ)} {x : NE} {f : List ℕ → ℝ} {G : List ℕ} (hx : Elem V l x f) (hG : broadcast l = some G) :
    ∃ a, x.run = .ok a ∧ a.shape = G ∧ Holds l a V f ∧ ∀ i, V i → a.at i = some (f i) := by
  obtain ⟨a, h1, rfl, h3⟩ := hx.1 G hG
  exact ⟨a, h1, rfl, ⟨hG, fun i hi hv => by rw [← at_valid a i hi]; exact h3 i hv⟩, h3⟩

end ChaosMagPy.ElemArr
