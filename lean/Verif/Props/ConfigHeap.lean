import Verif.Model.ConfigHeap
import Mathlib.Tactic.IntervalCases
import Verif.Lemmas.ConfigMore
/-!
# Property C64: configuration values that are arrays, and who else may refer to them
-/
namespace ChaosMagPy.ConfigHeap
open ChaosMagPy.Config (Sc Val Err FS Ctx State Validator defEntry defaults Dict)

/-! ## Specification -/

/-- What a reader of the configuration sees: file system and the present values. -/
def seen (h : H) : State := { fs := h.fs, cfg := h.cfg.map fun kv => (kv.1, deref h.heap kv.2) }

/-- The program takes no array out of the configuration. -/
def NoGet : Prog → Prop
  | .getItem _ => False
  | .ctx _ _ body => NoGet body
  | .seq p q => NoGet p ∧ NoGet q
  | .tryExcept p => NoGet p
  | _ => True

/-- The program does no full reset. -/
def NoFull : Prog → Prop
  | .fullreset => False
  | .ctx _ _ body => NoFull body
  | .seq p q => NoFull p ∧ NoFull q
  | .tryExcept p => NoFull p
  | _ => True

/-- The program never names the configuration: it makes arrays, writes into them, handles exceptions and files. -/
def Outside : Prog → Prop
  | .skip => True
  | .newArray _ => True
  | .write _ _ _ => True
  | .raise => True
  | .createFile _ => True
  | .deleteFile _ => True
  | .seq p q => Outside p ∧ Outside q
  | .tryExcept p => Outside p
  | _ => False

/-- An argument is replaced by a value: itself, or some array. -/
inductive ErasesArg : Arg → Val → Prop
  | lit (v : Val) : ErasesArg (.lit v) v
  | var (i : ℕ) (xs : List Sc) : ErasesArg (.var i) (.arr xs)

/-- The second program is the first one without its arrays: each variable is replaced by a value, making arrays and writing into
them does nothing, and a failing statement is an exception. -/
inductive Erases : Prog → Config.Prog → Prop
  | skip : Erases .skip .skip
  | newArray (xs : List Sc) : Erases (.newArray xs) .skip
  | write (i j : ℕ) (x : Sc) : Erases (.write i j x) .skip
  | writeFails (i j : ℕ) (x : Sc) : Erases (.write i j x) .raise
  | set (k : String) (a : Arg) (v : Val) (h : ErasesArg a v) : Erases (.set k a) (.set k v)
  | setFails (k : String) (i : ℕ) : Erases (.set k (.var i)) .raise
  | reset (k : String) : Erases (.reset k) (.reset k)
  | fullreset : Erases .fullreset .fullreset
  | load (es : List (String × Val)) : Erases (.load es) (.load es)
  | ctx (k : String) (a : Arg) (v : Val) (body : Prog) (body' : Config.Prog) (h : ErasesArg a v) (hb : Erases body body') :
      Erases (.ctx k a body) (.ctx k v body')
  | ctxFails (k : String) (i : ℕ) (body : Prog) : Erases (.ctx k (.var i) body) .raise
  | seq (p q : Prog) (p' q' : Config.Prog) (hp : Erases p p') (hq : Erases q q') : Erases (.seq p q) (.seq p' q')
  | tryExcept (p : Prog) (p' : Config.Prog) (hp : Erases p p') : Erases (.tryExcept p) (.tryExcept p')
  | raise : Erases .raise .raise
  | createFile (path : String) : Erases (.createFile path) (.createFile path)
  | deleteFile (path : String) : Erases (.deleteFile path) (.deleteFile path)

/-- Nobody but the configuration's own past refers to the array. -/
def Private (a : ℕ) (h : H) : Prop := a < h.heap.length ∧ a ∉ h.env ∧ ∀ kv ∈ h.cfg, kv.2 ≠ Cell.ref a

/-! ## Lemmas -/

theorem seen_setKey (heap : List (List Sc)) (d : List (String × Cell)) (k : String) (v : Cell) :
    (setKey d k v).map (fun kv => (kv.1, deref heap kv.2)) = Dict.set (d.map fun kv => (kv.1, deref heap kv.2)) k (deref heap v) := by
  induction d with
  | nil => rfl
  | cons e d ih =>
    obtain ⟨k', v'⟩ := e
    by_cases hk : k' = k
    · simp [setKey, Dict.set, hk]
    · simp [setKey, Dict.set, hk, ih]

theorem lookup_map (heap : List (List Sc)) (d : List (String × Cell)) (k : String) :
    Dict.get (d.map fun kv => (kv.1, deref heap kv.2)) k = (d.lookup k).map (deref heap) := by
  induction d with
  | nil => rfl
  | cons e d ih =>
    obtain ⟨k', v'⟩ := e
    unfold Dict.get at ih ⊢
    by_cases hk : k == k' <;> simp [List.lookup_cons, hk, ih]

theorem mem_setKey {d : List (String × Cell)} {k : String} {v : Cell} {e : String × Cell} (h : e ∈ setKey d k v) :
    e = (k, v) ∨ e ∈ d := by
  induction d with
  | nil => simpa [setKey] using h
  | cons f d ih =>
    obtain ⟨k', v'⟩ := f
    by_cases hk : k' = k
    · simp [setKey, hk] at h
      rcases h with h | h
      · exact Or.inl h
      · exact Or.inr (List.mem_cons_of_mem _ h)
    · simp [setKey, hk] at h
      rcases h with h | h
      · exact Or.inr (by simp [h])
      · rcases ih h with h | h
        · exact Or.inl h
        · exact Or.inr (List.mem_cons_of_mem _ h)

/-- Invariant of a configuration whose arrays nobody else holds. -/
structure Inv (h : H) : Prop where
  own : ∀ k a, (k, Cell.ref a) ∈ h.cfg → a < h.heap.length ∧ a ∉ h.env
  env : ∀ a ∈ h.env, 2 ≤ a ∧ a < h.heap.length
  defs : ∀ a < 2, h.heap[a]? = defaultArrays[a]?

/-- Arrays nobody holds keep their content. -/
def Frame (h h' : H) : Prop :=
  h.heap.length ≤ h'.heap.length ∧ ∀ a < h.heap.length, a ∉ h.env → a ∉ h'.env ∧ h'.heap[a]? = h.heap[a]?

theorem Frame.refl (h : H) : Frame h h := ⟨le_rfl, fun _ _ hn => ⟨hn, rfl⟩⟩

theorem Frame.trans {h1 h2 h3 : H} (a : Frame h1 h2) (b : Frame h2 h3) : Frame h1 h3 := by
  refine ⟨a.1.trans b.1, fun x hx hn => ?_⟩
  obtain ⟨h1, h2⟩ := a.2 x hx hn
  obtain ⟨h3, h4⟩ := b.2 x (lt_of_lt_of_le hx a.1) h1
  exact ⟨h3, h4.trans h2⟩

theorem Inv.len {h : H} (hi : Inv h) : 2 ≤ h.heap.length := by
  have h1 := hi.defs 1 (by norm_num)
  by_contra hc
  rw [List.getElem?_eq_none (by omega)] at h1
  simp [defaultArrays] at h1

theorem getD_eq (l : List (List Sc)) (a : ℕ) : l.getD a [] = (l[a]?).getD [] := by rw [List.getD_eq_getElem?_getD]

theorem deref_append (heap : List (List Sc)) (xs : List Sc) (cell : Cell) (h : ∀ a, cell = .ref a → a < heap.length) :
    deref (heap ++ [xs]) cell = deref heap cell := by
  cases cell with
  | imm v => rfl
  | ref a =>
    have ha := h a rfl
    simp only [deref, getD_eq, List.getElem?_append_left ha]

theorem seen_congr (h h' : H) (hcfg : h'.cfg = h.cfg) (hfs : h'.fs = h.fs) (hi : Inv h) (hf : Frame h h') : seen h' = seen h := by
  unfold seen
  rw [hcfg, hfs]
  congr 1
  apply List.map_congr_left
  rintro ⟨k, cell⟩ hm
  cases cell with
  | imm v => rfl
  | ref a =>
    obtain ⟨h1, h2⟩ := hi.own k a hm
    obtain ⟨_, h4⟩ := hf.2 a h1 h2
    simp only [deref, getD_eq, h4]

theorem store_frame (h : H) (k : String) (v : Val) : Frame h (store h k v) := by
  cases v with
  | arr xs =>
    refine ⟨by simp [store], fun a ha hn => ⟨hn, ?_⟩⟩
    simp only [store]
    exact List.getElem?_append_left ha
  | sc s => exact ⟨le_rfl, fun a ha hn => ⟨hn, rfl⟩⟩
  | list s => exact ⟨le_rfl, fun a ha hn => ⟨hn, rfl⟩⟩
  | other s => exact ⟨le_rfl, fun a ha hn => ⟨hn, rfl⟩⟩

theorem store_imm (h : H) (k : String) (v : Val) (hv : ∀ xs, v ≠ .arr xs) : store h k v = { h with cfg := setKey h.cfg k (.imm v) } := by
  cases v with
  | arr xs => exact absurd rfl (hv xs)
  | sc s => rfl
  | list s => rfl
  | other s => rfl

theorem Inv.imm {h : H} (hi : Inv h) (k : String) (v : Val) : Inv { h with cfg := setKey h.cfg k (.imm v) } := by
  refine ⟨fun k' a hm => ?_, hi.env, hi.defs⟩
  rcases mem_setKey hm with hm | hm
  · simp at hm
  · exact hi.own k' a hm

theorem Inv.store {h : H} (hi : Inv h) (k : String) (v : Val) : Inv (store h k v) := by
  by_cases hv : ∃ xs, v = .arr xs
  · obtain ⟨xs, rfl⟩ := hv
    refine ⟨fun k' a hm => ?_, fun a ha => ?_, fun a ha => ?_⟩
    · rcases mem_setKey hm with hm | hm
      · simp only [Prod.mk.injEq, Cell.ref.injEq] at hm
        obtain ⟨_, rfl⟩ := hm
        refine ⟨by simp [ConfigHeap.store], fun hc => ?_⟩
        have := (hi.env _ hc).2
        omega
      · have := hi.own k' a hm
        refine ⟨?_, this.2⟩
        simp only [ConfigHeap.store, List.length_append, List.length_singleton]
        omega
    · have := hi.env a ha
      refine ⟨this.1, ?_⟩
      simp only [ConfigHeap.store, List.length_append, List.length_singleton]
      omega
    · rw [← hi.defs a ha]
      exact List.getElem?_append_left (lt_of_lt_of_le ha hi.len)
  · rw [store_imm h k v (fun xs hx => hv ⟨xs, hx⟩)]
    exact hi.imm k v

theorem seen_store (h : H) (hi : Inv h) (k : String) (v : Val) :
    seen (store h k v) = { (seen h) with cfg := (seen h).cfg.set k v } := by
  by_cases hv : ∃ xs, v = .arr xs
  · obtain ⟨xs, rfl⟩ := hv
    unfold seen store
    simp only [seen_setKey]
    congr 1
    congr 1
    · apply List.map_congr_left
      rintro ⟨k', cell⟩ hm
      simp only [Prod.mk.injEq, true_and]
      exact deref_append _ _ _ (fun a ha => (hi.own k' a (ha ▸ hm)).1)
    · simp [deref]
  · rw [store_imm h k v (fun xs hx => hv ⟨xs, hx⟩)]
    unfold seen
    simp only [seen_setKey]
    rfl

/-- Result of a pure operation as a pair. -/
def pair (s : State) : Except Err State → State × Option Err
  | .ok s' => (s', none)
  | .error e => (s, some e)

theorem defCell_chk (c : Ctx) (k : String) : (defCell c k).map Prod.snd = (defEntry c k).map Prod.snd := by
  unfold defCell
  cases defEntry c k with
  | none => rfl
  | some e => rfl

theorem setVal_seen (c : Ctx) (h : H) (hi : Inv h) (k : String) (v : Val) :
    Inv (setVal c h k v).1 ∧ Frame h (setVal c h k v).1 ∧
      pair (seen h) (Config.setItem c (seen h) k v) = (seen (setVal c h k v).1, (setVal c h k v).2) := by
  unfold setVal Config.setItem defCell
  cases he : defEntry c k with
  | none => exact ⟨hi, Frame.refl h, rfl⟩
  | some e =>
    obtain ⟨d, chk⟩ := e
    have hfs : (seen h).fs = h.fs := rfl
    simp only [hfs]
    cases hr : chk.run c.py h.fs v with
    | error e => exact ⟨hi, Frame.refl h, rfl⟩
    | ok w =>
      refine ⟨hi.store k w, store_frame h k w, ?_⟩
      simp only [pair, seen_store h hi]
      rfl

theorem defaults_deref (c : Ctx) (h : H) (hd : ∀ a < 2, h.heap[a]? = defaultArrays[a]?) (k : String) (d : Val) (chk : Validator)
    (he : defEntry c k = some (d, chk)) :
    ∃ cell, defCell c k = some (cell, chk) ∧ deref h.heap cell = d := by
  unfold defCell
  rw [he]
  refine ⟨_, rfl, ?_⟩
  have h0 : h.heap.getD 0 [] = [.flt (.fin (-29442)), .flt (.fin (-1501)), .flt (.fin 4797.1)] := by
    rw [getD_eq, hd 0 (by norm_num)]; rfl
  have h1 : h.heap.getD 1 [] = [.flt (.fin 6378.137), .flt (.fin 6356.752)] := by
    rw [getD_eq, hd 1 (by norm_num)]; rfl
  by_cases hk : k = "params.dipole"
  · subst hk
    rw [if_pos rfl]
    have : defEntry c "params.dipole" = some (.arr [.flt (.fin (-29442)), .flt (.fin (-1501)), .flt (.fin 4797.1)], .vector 3) := rfl
    rw [this] at he
    cases he
    simp only [deref, h0]
  · rw [if_neg hk]
    by_cases hk2 : k = "params.ellipsoid"
    · subst hk2
      rw [if_pos rfl]
      have : defEntry c "params.ellipsoid" = some (.arr [.flt (.fin 6378.137), .flt (.fin 6356.752)], .vector 2) := rfl
      rw [this] at he
      cases he
      simp only [deref, h1]
    · rw [if_neg hk2]
      rfl

theorem defCell_none (c : Ctx) (k : String) (he : defEntry c k = none) : defCell c k = none := by
  unfold defCell
  rw [he]

theorem reset_seen (c : Ctx) (h : H) (hi : Inv h) (k : String) :
    Inv (reset c h k).1 ∧ Frame h (reset c h k).1 ∧
      pair (seen h) (Config.reset c (seen h) k) = (seen (reset c h k).1, (reset c h k).2) := by
  unfold reset Config.reset
  cases he : defEntry c k with
  | none =>
    rw [defCell_none c k he]
    exact ⟨hi, Frame.refl h, rfl⟩
  | some e =>
    obtain ⟨d, chk⟩ := e
    obtain ⟨cell, h1, h2⟩ := defaults_deref c h hi.defs k d chk he
    rw [h1]
    simp only [h2]
    exact setVal_seen c h hi k d

theorem load_seen (c : Ctx) : ∀ (es : List (String × Val)) (h : H), Inv h →
    Inv (load c h es).1 ∧ Frame h (load c h es).1 ∧ Config.load c (seen h) es = (seen (load c h es).1, (load c h es).2)
  | [], h, hi => ⟨hi, Frame.refl h, rfl⟩
  | (k, v) :: es, h, hi => by
    obtain ⟨h1, h2, h3⟩ := setVal_seen c h hi k v
    unfold load Config.load
    cases hs : setVal c h k v with
    | mk h' r =>
      rw [hs] at h1 h2 h3
      cases r with
      | some e =>
        cases hp : Config.setItem c (seen h) k v with
        | ok s => rw [hp] at h3; simp [pair] at h3
        | error e' =>
          rw [hp] at h3
          simp only [pair, Prod.mk.injEq, Option.some.injEq] at h3
          refine ⟨h1, h2, ?_⟩
          simp only [h3.1, h3.2]
      | none =>
        cases hp : Config.setItem c (seen h) k v with
        | error e' => rw [hp] at h3; simp [pair] at h3
        | ok s =>
          rw [hp] at h3
          simp only [pair, Prod.mk.injEq] at h3
          obtain ⟨h4, h5, h6⟩ := load_seen c es h' h1
          refine ⟨h4, h2.trans h5, ?_⟩
          simp only [h3.1]
          exact h6

theorem foldl_setKey (heap : List (List Sc)) (es : List (String × Cell)) : ∀ d : List (String × Cell),
    (es.foldl (fun d kv => setKey d kv.1 kv.2) d).map (fun kv => (kv.1, deref heap kv.2)) =
      Dict.update (d.map fun kv => (kv.1, deref heap kv.2)) (es.map fun kv => (kv.1, deref heap kv.2)) := by
  induction es with
  | nil => intro d; rfl
  | cons e es ih =>
    intro d
    rw [List.foldl_cons, ih, seen_setKey]
    rfl

theorem mem_foldl_setKey (es : List (String × Cell)) : ∀ (d : List (String × Cell)) (e : String × Cell),
    e ∈ es.foldl (fun d kv => setKey d kv.1 kv.2) d → e ∈ es ∨ e ∈ d := by
  induction es with
  | nil => intro d e h; exact Or.inr h
  | cons f es ih =>
    intro d e h
    rw [List.foldl_cons] at h
    rcases ih _ _ h with h | h
    · exact Or.inl (List.mem_cons_of_mem _ h)
    · rcases mem_setKey h with h | h
      · exact Or.inl (by rw [h]; exact List.mem_cons_self)
      · exact Or.inr h

theorem defaultCells_ref {c : Ctx} {k : String} {a : ℕ} (h : (k, Cell.ref a) ∈ defaultCells c) : a < 2 := by
  unfold defaultCells at h
  obtain ⟨e, _, he⟩ := List.mem_map.1 h
  simp only [Prod.mk.injEq] at he
  obtain ⟨_, he⟩ := he
  split at he
  · simp only [Cell.ref.injEq] at he; omega
  · split at he
    · simp only [Cell.ref.injEq] at he; omega
    · simp at he

theorem defaultCells_seen (c : Ctx) (h : H) (hd : ∀ a < 2, h.heap[a]? = defaultArrays[a]?) :
    (defaultCells c).map (fun kv => (kv.1, deref h.heap kv.2)) = Config.defaultDict c := by
  have h0 : h.heap.getD 0 [] = [.flt (.fin (-29442)), .flt (.fin (-1501)), .flt (.fin 4797.1)] := by
    rw [getD_eq, hd 0 (by norm_num)]; rfl
  have h1 : h.heap.getD 1 [] = [.flt (.fin 6378.137), .flt (.fin 6356.752)] := by
    rw [getD_eq, hd 1 (by norm_num)]; rfl
  unfold defaultCells Config.defaultDict
  rw [List.map_map]
  simp only [defaults, List.map_cons, List.map_nil, Function.comp, String.reduceEq, if_true, if_false, deref, h0, h1]

theorem fullreset_seen (c : Ctx) (h : H) (hi : Inv h) :
    Inv (fullreset c h) ∧ Frame h (fullreset c h) ∧ Config.fullreset c (seen h) = seen (fullreset c h) := by
  refine ⟨⟨fun k a hm => ?_, hi.env, hi.defs⟩, ⟨le_rfl, fun a ha hn => ⟨hn, rfl⟩⟩, ?_⟩
  · rcases mem_foldl_setKey _ _ _ hm with hm | hm
    · have := defaultCells_ref hm
      exact ⟨lt_of_lt_of_le this hi.len, fun hc => by have := (hi.env a hc).1; omega⟩
    · exact hi.own k a hm
  · unfold fullreset Config.fullreset seen
    simp only [foldl_setKey]
    rw [defaultCells_seen c h hi.defs]

theorem assign_seen (c : Ctx) (h : H) (hi : Inv h) (k : String) (a : Arg) (v : Val) (hv : a.val h = some v) :
    Inv (assign c h k a).1 ∧ Frame h (assign c h k a).1 ∧
      pair (seen h) (Config.setItem c (seen h) k v) = (seen (assign c h k a).1, (assign c h k a).2) := by
  unfold assign
  rw [hv]
  exact setVal_seen c h hi k v

theorem val_erases {h : H} {a : Arg} {v : Val} (hv : a.val h = some v) : ErasesArg a v := by
  cases a with
  | lit w => simp only [Arg.val, Option.some.injEq] at hv; subst hv; exact .lit w
  | var i =>
    simp only [Arg.val, Option.map_eq_some_iff] at hv
    obtain ⟨x, _, rfl⟩ := hv
    exact .var i _

theorem erasesArg_exists (a : Arg) : ∃ v, ErasesArg a v := by
  cases a with
  | lit w => exact ⟨w, .lit w⟩
  | var i => exact ⟨.arr [], .var i []⟩

theorem erases_exists : ∀ p : Prog, NoGet p → ∃ p', Erases p p'
  | .skip, _ => ⟨_, .skip⟩
  | .newArray xs, _ => ⟨_, .newArray xs⟩
  | .getItem _, h => h.elim
  | .write i j x, _ => ⟨_, .write i j x⟩
  | .set k v, _ => (erasesArg_exists v).elim fun w hw => ⟨_, .set k v w hw⟩
  | .reset k, _ => ⟨_, .reset k⟩
  | .fullreset, _ => ⟨_, .fullreset⟩
  | .load es, _ => ⟨_, .load es⟩
  | .ctx k v body, h => (erasesArg_exists v).elim fun w hw => (erases_exists body h).elim fun b hb => ⟨_, .ctx k v w body b hw hb⟩
  | .seq p q, h => (erases_exists p h.1).elim fun a ha => (erases_exists q h.2).elim fun b hb => ⟨_, .seq p q a b ha hb⟩
  | .tryExcept p, h => (erases_exists p h).elim fun a ha => ⟨_, .tryExcept p a ha⟩
  | .raise, _ => ⟨_, .raise⟩
  | .createFile p, _ => ⟨_, .createFile p⟩
  | .deleteFile p, _ => ⟨_, .deleteFile p⟩

theorem val_none {h : H} {a : Arg} (hv : a.val h = none) : ∃ i, a = .var i := by
  cases a with
  | lit w => cases hv
  | var i => exact ⟨i, rfl⟩

theorem newArray_inv (h : H) (hi : Inv h) (xs : List Sc) :
    let h' : H := { h with heap := h.heap ++ [xs], env := h.env ++ [h.heap.length] }
    Inv h' ∧ Frame h h' := by
  have hl := hi.len
  refine ⟨⟨fun k a hm => ?_, fun a ha => ?_, fun a ha => ?_⟩, ?_, fun a ha hn => ⟨?_, ?_⟩⟩
  · obtain ⟨h1, h2⟩ := hi.own k a hm
    refine ⟨by simp; omega, ?_⟩
    simp only [List.mem_append, List.mem_singleton, not_or]
    exact ⟨h2, by omega⟩
  · simp only [List.mem_append, List.mem_singleton] at ha
    simp only [List.length_append, List.length_singleton]
    rcases ha with ha | ha
    · have := hi.env a ha; omega
    · omega
  · rw [← hi.defs a ha]
    exact List.getElem?_append_left (by omega)
  · simp
  · simp only [List.mem_append, List.mem_singleton, not_or]
    exact ⟨hn, by omega⟩
  · exact List.getElem?_append_left ha

theorem write_inv (h : H) (hi : Inv h) (a : ℕ) (xs : List Sc) (ha : a ∈ h.env) :
    let h' : H := { h with heap := h.heap.set a xs }
    Inv h' ∧ Frame h h' := by
  obtain ⟨h1, h2⟩ := hi.env a ha
  refine ⟨⟨fun k b hm => ?_, fun b hb => ?_, fun b hb => ?_⟩, ?_, fun b hb hn => ⟨hn, ?_⟩⟩
  · obtain ⟨h1, h2⟩ := hi.own k b hm
    exact ⟨by simpa using h1, h2⟩
  · obtain ⟨h1, h2⟩ := hi.env b hb
    exact ⟨h1, by simpa using h2⟩
  · rw [← hi.defs b hb]
    exact List.getElem?_set_ne (by omega)
  · simp
  · exact List.getElem?_set_ne (fun hc => hn (by rw [← hc]; exact ha))

theorem refine_step (c : Ctx) : ∀ (p : Prog), NoGet p → ∀ h : H, Inv h →
    Inv (exec c p h).1 ∧ Frame h (exec c p h).1 ∧
      ∃ p', Erases p p' ∧ Config.exec c p' (seen h) = (seen (exec c p h).1, (exec c p h).2)
  | .skip, _, h, hi => ⟨hi, Frame.refl h, _, .skip, rfl⟩
  | .newArray xs, _, h, hi => by
    obtain ⟨h1, h2⟩ := newArray_inv h hi xs
    exact ⟨h1, h2, _, .newArray xs, congrArg (fun s => (s, none)) (seen_congr h { h with heap := h.heap ++ [xs], env := h.env ++ [h.heap.length] } rfl rfl hi h2).symm⟩
  | .getItem _, hp, _, _ => hp.elim
  | .write i j x, _, h, hi => by
    rw [exec]
    unfold writeAt
    cases he : h.env[i]? with
    | none => exact ⟨hi, Frame.refl h, _, .writeFails i j x, rfl⟩
    | some a =>
      have ha : a ∈ h.env := List.mem_of_getElem? he
      by_cases hj : j < (h.heap.getD a []).length
      · simp only [if_pos hj]
        obtain ⟨h1, h2⟩ := write_inv h hi a ((h.heap.getD a []).set j x) ha
        exact ⟨h1, h2, _, .write i j x, congrArg (fun s => (s, none)) (seen_congr h { h with heap := h.heap.set a ((h.heap.getD a []).set j x) } rfl rfl hi h2).symm⟩
      · simp only [if_neg hj]
        exact ⟨hi, Frame.refl h, _, .writeFails i j x, rfl⟩
  | .set k v, _, h, hi => by
    rw [exec]
    cases hv : v.val h with
    | none =>
      obtain ⟨i, rfl⟩ := val_none hv
      unfold assign
      rw [hv]
      exact ⟨hi, Frame.refl h, _, .setFails k i, rfl⟩
    | some w =>
      obtain ⟨h1, h2, h3⟩ := assign_seen c h hi k v w hv
      refine ⟨h1, h2, _, .set k v w (val_erases hv), ?_⟩
      rw [Config.exec, ← h3]
      cases Config.setItem c (seen h) k w <;> rfl
  | .reset k, _, h, hi => by
    obtain ⟨h1, h2, h3⟩ := reset_seen c h hi k
    refine ⟨h1, h2, _, .reset k, ?_⟩
    rw [Config.exec, exec, ← h3]
    cases Config.reset c (seen h) k <;> rfl
  | .fullreset, _, h, hi => by
    obtain ⟨h1, h2, h3⟩ := fullreset_seen c h hi
    exact ⟨h1, h2, _, .fullreset, by rw [Config.exec, exec, h3]⟩
  | .load es, _, h, hi => by
    obtain ⟨h1, h2, h3⟩ := load_seen c es h hi
    exact ⟨h1, h2, _, .load es, by rw [Config.exec, exec, h3]⟩
  | .ctx k v body, hp, h, hi => by
    obtain ⟨b0, hb0⟩ := erases_exists body hp
    have hget : (seen h).cfg.get k = (h.cfg.lookup k).map (deref h.heap) := lookup_map h.heap h.cfg k
    rw [exec]
    cases hl : h.cfg.lookup k with
    | none =>
      obtain ⟨w, hw⟩ := erasesArg_exists v
      refine ⟨hi, Frame.refl h, _, .ctx k v w body b0 hw hb0, ?_⟩
      rw [hl] at hget
      rw [Config.exec, hget]
      rfl
    | some old =>
      rw [hl] at hget
      have hold : ∀ a, old = .ref a → a < h.heap.length ∧ a ∉ h.env := by
        rintro a rfl
        refine hi.own k a ?_
        obtain ⟨l1, l2, hll, _⟩ := List.lookup_eq_some_iff.1 hl
        rw [hll]
        simp
      cases hv : v.val h with
      | none =>
        obtain ⟨i, rfl⟩ := val_none hv
        have : assign c h k (.var i) = (h, some .user) := by unfold assign; rw [hv]
        simp only [this]
        exact ⟨hi, Frame.refl h, _, .ctxFails k i body, rfl⟩
      | some w =>
        obtain ⟨h1, h2, h3⟩ := assign_seen c h hi k v w hv
        cases ha : assign c h k v with
        | mk hh r =>
          rw [ha] at h1 h2 h3
          cases r with
          | some e =>
            refine ⟨h1, h2, _, .ctx k v w body b0 (val_erases hv) hb0, ?_⟩
            rw [Config.exec, hget]
            cases hs : Config.setItem c (seen h) k w with
            | ok s => rw [hs] at h3; simp [pair] at h3
            | error e' =>
              rw [hs] at h3
              simp only [pair, Prod.mk.injEq, Option.some.injEq] at h3
              simp only [Option.map_some, hs, h3.1, h3.2]
          | none =>
            cases hs : Config.setItem c (seen h) k w with
            | error e' => rw [hs] at h3; simp [pair] at h3
            | ok s =>
              rw [hs] at h3
              simp only [pair, Prod.mk.injEq, and_true] at h3
              obtain ⟨h4, h5, b', hb', h6⟩ := refine_step c body hp hh h1
              cases hb : exec c body hh with
              | mk h2' r =>
                rw [hb] at h4 h5 h6
                cases r with
                | some e =>
                  simp only
                  refine ⟨by rw [hb]; exact h4, by rw [hb]; exact h2.trans h5, _, .ctx k v w body b' (val_erases hv) hb', ?_⟩
                  rw [Config.exec, hget]
                  simp only [Option.map_some, hs, h3, h6, hb]
                | none =>
                  have hd : deref h2'.heap old = deref h.heap old := by
                    cases old with
                    | imm v => rfl
                    | ref a =>
                      obtain ⟨x1, x2⟩ := hold a rfl
                      have := ((h2.trans h5).2 a x1 x2).2
                      simp only [deref, getD_eq, this]
                  obtain ⟨h7, h8, h9⟩ := setVal_seen c h2' h4 k (deref h2'.heap old)
                  simp only [hb]
                  refine ⟨h7, (h2.trans h5).trans h8, _, .ctx k v w body b' (val_erases hv) hb', ?_⟩
                  rw [Config.exec, hget]
                  simp only [Option.map_some, hs, h3, h6]
                  rw [← h9, hd]
                  cases Config.setItem c (seen h2') k (deref h.heap old) <;> rfl
  | .seq p q, hp, h, hi => by
    obtain ⟨h1, h2, p', hp', h3⟩ := refine_step c p hp.1 h hi
    rw [exec]
    cases he : exec c p h with
    | mk hh r =>
      rw [he] at h1 h2 h3
      cases r with
      | some e =>
        obtain ⟨q', hq'⟩ := erases_exists q hp.2
        refine ⟨h1, h2, _, .seq p q p' q' hp' hq', ?_⟩
        rw [Config.exec, h3]
      | none =>
        obtain ⟨h4, h5, q', hq', h6⟩ := refine_step c q hp.2 hh h1
        refine ⟨h4, h2.trans h5, _, .seq p q p' q' hp' hq', ?_⟩
        rw [Config.exec, h3]
        exact h6
  | .tryExcept p, hp, h, hi => by
    obtain ⟨h1, h2, p', hp', h3⟩ := refine_step c p hp h hi
    rw [exec]
    refine ⟨h1, h2, _, .tryExcept p p' hp', ?_⟩
    rw [Config.exec, h3]
  | .raise, _, h, hi => ⟨hi, Frame.refl h, _, .raise, rfl⟩
  | .createFile path, _, h, hi =>
    ⟨⟨hi.own, hi.env, hi.defs⟩, ⟨le_rfl, fun a ha hn => ⟨hn, rfl⟩⟩, _, .createFile path, rfl⟩
  | .deleteFile path, _, h, hi =>
    ⟨⟨hi.own, hi.env, hi.defs⟩, ⟨le_rfl, fun a ha hn => ⟨hn, rfl⟩⟩, _, .deleteFile path, rfl⟩

theorem init_inv (c : Ctx) (fs : FS) : Inv (init c fs) := by
  refine ⟨fun k a hm => ?_, fun a ha => by simp [init] at ha, fun a ha => rfl⟩
  have := defaultCells_ref hm
  exact ⟨this, by simp [init]⟩

theorem init_seen (c : Ctx) (fs : FS) : seen (init c fs) = Config.init c fs := by
  have := defaultCells_seen c (init c fs) (fun _ _ => rfl)
  unfold seen Config.init
  rw [← this]
  rfl

/-! ## The property -/

/-- **C64 (arrays handed in are copied).** As long as no array is taken out of the configuration, a program that makes arrays, hands them to
the configuration and goes on writing into them behaves like a program without arrays: the configuration keeps what the arrays contained
when they were assigned, exceptions are the same. So C01-C05 hold for such programs. -/
theorem C64_refines (c : Ctx) (fs : FS) (p : Prog) (hp : NoGet p) :
    ∃ p', Erases p p' ∧
      Config.exec c p' (Config.init c fs) = (seen (exec c p (init c fs)).1, (exec c p (init c fs)).2) := by
  obtain ⟨_, _, p', h1, h2⟩ := refine_step c p hp _ (init_inv c fs)
  exact ⟨p', h1, by rw [← init_seen]; exact h2⟩

theorem outside_frame (c : Ctx) : ∀ p : Prog, Outside p → ∀ h : H, NoGet p ∧ (exec c p h).1.cfg = h.cfg
  | .skip, _, _ => ⟨trivial, rfl⟩
  | .newArray _, _, _ => ⟨trivial, rfl⟩
  | .write i j x, _, h => by
    refine ⟨trivial, ?_⟩
    rw [exec]
    unfold writeAt
    cases h.env[i]? with
    | none => rfl
    | some a =>
      simp only
      split <;> rfl
  | .raise, _, _ => ⟨trivial, rfl⟩
  | .createFile _, _, _ => ⟨trivial, rfl⟩
  | .deleteFile _, _, _ => ⟨trivial, rfl⟩
  | .seq p q, hp, h => by
    obtain ⟨h1, h2⟩ := outside_frame c p hp.1 h
    refine ⟨⟨h1, (outside_frame c q hp.2 h).1⟩, ?_⟩
    rw [exec]
    cases he : exec c p h with
    | mk hh r =>
      rw [he] at h2
      cases r with
      | some e => exact h2
      | none => exact ((outside_frame c q hp.2 hh).2).trans h2
  | .tryExcept p, hp, h => by
    obtain ⟨h1, h2⟩ := outside_frame c p hp h
    exact ⟨h1, h2⟩

/-- **C64 (writing into one's own arrays).** After any history in which no array was taken out of the configuration, code that does not name
the configuration changes no value of it, whatever it writes into the arrays it assigned before. -/
theorem C64_writes (c : Ctx) (fs : FS) (p q : Prog) (hp : NoGet p) (hq : Outside q) :
    (seen (exec c q (exec c p (init c fs)).1).1).cfg = (seen (exec c p (init c fs)).1).cfg := by
  obtain ⟨hi, _, _⟩ := refine_step c p hp _ (init_inv c fs)
  set h := (exec c p (init c fs)).1
  obtain ⟨h1, h2⟩ := outside_frame c q hq h
  obtain ⟨_, hf, _⟩ := refine_step c q h1 h hi
  have e : seen { (exec c q h).1 with fs := h.fs } = seen h := seen_congr h { (exec c q h).1 with fs := h.fs } h2 rfl hi ⟨hf.1, hf.2⟩
  have e' : (seen { (exec c q h).1 with fs := h.fs }).cfg = (seen h).cfg := by rw [e]
  exact e'

/-! ### Private arrays -/

theorem private_store {a : ℕ} {h : H} (hp : Private a h) (k : String) (v : Val) :
    Private a (store h k v) ∧ (store h k v).heap[a]? = h.heap[a]? := by
  obtain ⟨h1, h2, h3⟩ := hp
  by_cases hv : ∃ xs, v = .arr xs
  · obtain ⟨xs, rfl⟩ := hv
    refine ⟨⟨by simp [store]; omega, h2, fun e he => ?_⟩, List.getElem?_append_left h1⟩
    rcases mem_setKey he with he | he
    · rw [he]
      simp only [ne_eq, Cell.ref.injEq]
      omega
    · exact h3 e he
  · rw [store_imm h k v (fun xs hx => hv ⟨xs, hx⟩)]
    refine ⟨⟨h1, h2, fun e he => ?_⟩, rfl⟩
    rcases mem_setKey he with he | he
    · rw [he]; simp
    · exact h3 e he

theorem private_setVal {a : ℕ} {h : H} (c : Ctx) (hp : Private a h) (k : String) (v : Val) :
    Private a (setVal c h k v).1 ∧ (setVal c h k v).1.heap[a]? = h.heap[a]? := by
  unfold setVal
  cases defCell c k with
  | none => exact ⟨hp, rfl⟩
  | some e =>
    simp only
    cases e.2.run c.py h.fs v with
    | error _ => exact ⟨hp, rfl⟩
    | ok w => exact private_store hp k w

theorem private_load {a : ℕ} (c : Ctx) : ∀ (es : List (String × Val)) {h : H}, Private a h →
    Private a (load c h es).1 ∧ (load c h es).1.heap[a]? = h.heap[a]?
  | [], _, hp => ⟨hp, rfl⟩
  | (k, v) :: es, h, hp => by
    obtain ⟨h1, h2⟩ := private_setVal c hp k v
    rw [load]
    cases hs : setVal c h k v with
    | mk hh r =>
      rw [hs] at h1 h2
      cases r with
      | some e => exact ⟨h1, h2⟩
      | none =>
        obtain ⟨h3, h4⟩ := private_load c es h1
        exact ⟨h3, h4.trans h2⟩

theorem private_exec {a : ℕ} (c : Ctx) : ∀ (p : Prog) {h : H}, (2 ≤ a ∨ NoFull p) → Private a h →
    Private a (exec c p h).1 ∧ (exec c p h).1.heap[a]? = h.heap[a]?
  | .skip, _, _, hp => ⟨hp, rfl⟩
  | .newArray xs, h, _, hp => by
    obtain ⟨h1, h2, h3⟩ := hp
    refine ⟨⟨by simp [exec]; omega, ?_, h3⟩, List.getElem?_append_left h1⟩
    simp only [exec, List.mem_append, List.mem_singleton, not_or]
    exact ⟨h2, by omega⟩
  | .getItem k, h, _, hp => by
    rw [exec]
    cases hl : h.cfg.lookup k with
    | none => exact ⟨hp, rfl⟩
    | some cell =>
      obtain ⟨h1, h2, h3⟩ := hp
      cases cell with
      | imm v => exact ⟨⟨h1, h2, h3⟩, rfl⟩
      | ref b =>
        refine ⟨⟨h1, ?_, h3⟩, rfl⟩
        obtain ⟨l1, l2, hll, _⟩ := List.lookup_eq_some_iff.1 hl
        have := h3 (k, .ref b) (by rw [hll]; simp)
        simp only [ne_eq, Cell.ref.injEq] at this
        simp only [keep, List.mem_append, List.mem_singleton, not_or]
        exact ⟨h2, fun hc => this hc.symm⟩
  | .write i j x, h, _, hp => by
    obtain ⟨h1, h2, h3⟩ := hp
    rw [exec]
    unfold writeAt
    cases he : h.env[i]? with
    | none => exact ⟨⟨h1, h2, h3⟩, rfl⟩
    | some b =>
      have hb : b ∈ h.env := List.mem_of_getElem? he
      simp only
      split
      · exact ⟨⟨by simpa using h1, h2, h3⟩, List.getElem?_set_ne (fun hc => h2 (by rw [← hc]; exact hb))⟩
      · exact ⟨⟨h1, h2, h3⟩, rfl⟩
  | .set k v, h, _, hp => by
    rw [exec]
    unfold assign
    cases v.val h with
    | none => exact ⟨hp, rfl⟩
    | some w => exact private_setVal c hp k w
  | .reset k, h, _, hp => by
    rw [exec]
    unfold reset
    cases defCell c k with
    | none => exact ⟨hp, rfl⟩
    | some e => exact private_setVal c hp k _
  | .fullreset, h, hor, hp => by
    obtain ⟨h1, h2, h3⟩ := hp
    rcases hor with ha | hf
    · refine ⟨⟨h1, h2, fun e he => ?_⟩, rfl⟩
      rcases mem_foldl_setKey _ _ _ he with he | he
      · obtain ⟨k, cell⟩ := e
        rintro rfl
        have := defaultCells_ref he
        omega
      · exact h3 e he
    · exact hf.elim
  | .load es, h, _, hp => private_load c es hp
  | .ctx k v body, h, hor, hp => by
    rw [exec]
    cases hl : h.cfg.lookup k with
    | none => exact ⟨hp, rfl⟩
    | some old =>
      have hA : Private a (assign c h k v).1 ∧ (assign c h k v).1.heap[a]? = h.heap[a]? := by
        unfold assign
        cases v.val h with
        | none => exact ⟨hp, rfl⟩
        | some w => exact private_setVal c hp k w
      cases ha : assign c h k v with
      | mk h1 r =>
        rw [ha] at hA
        cases r with
        | some e => exact hA
        | none =>
          have hB := private_exec c body (h := h1) hor hA.1
          simp only
          cases hb : exec c body h1 with
          | mk h2 r =>
            rw [hb] at hB
            cases r with
            | some e => exact ⟨hB.1, hB.2.trans hA.2⟩
            | none =>
              obtain ⟨h3, h4⟩ := private_setVal c hB.1 k (deref h2.heap old)
              exact ⟨h3, (h4.trans hB.2).trans hA.2⟩
  | .seq p q, h, hor, hp => by
    have hA := private_exec c p (h := h) (hor.imp id And.left) hp
    rw [exec]
    cases ha : exec c p h with
    | mk h1 r =>
      rw [ha] at hA
      cases r with
      | some e => exact hA
      | none =>
        obtain ⟨h3, h4⟩ := private_exec c q (h := h1) (hor.imp id And.right) hA.1
        exact ⟨h3, h4.trans hA.2⟩
  | .tryExcept p, h, hor, hp => private_exec c p (h := h) hor hp
  | .raise, _, _, hp => ⟨hp, rfl⟩
  | .createFile _, _, _, hp => ⟨⟨hp.1, hp.2.1, hp.2.2⟩, rfl⟩
  | .deleteFile _, _, _, hp => ⟨⟨hp.1, hp.2.1, hp.2.2⟩, rfl⟩

theorem lookup_setKey_self (d : List (String × Cell)) (k : String) (v : Cell) : (setKey d k v).lookup k = some v := by
  induction d with
  | nil => simp [setKey]
  | cons e d ih =>
    obtain ⟨k', v'⟩ := e
    by_cases hk : k' = k
    · simp [setKey, hk]
    · have : ¬ k = k' := fun h => hk h.symm
      have hb : (k == k') = false := by simpa using this
      simp only [setKey, if_neg hk, List.lookup_cons, hb, ih]

theorem vector_arr {py : Config.Py} {fs : FS} {n : ℕ} {xs : List Sc} {w : Val}
    (h : (Validator.vector n).run py fs (.arr xs) = .ok w) : w = .arr xs := by
  unfold Validator.run Config.checkVector Config.npArray1 at h
  simp only at h
  split at h
  · cases h
  · cases h; rfl

/-- **C64 (after the defaults have been copied).** Once neither the configuration nor the caller refers to the arrays of the defaults (which
is so after both vector keys have been reset or assigned), every program without a full reset - also one that takes arrays out of the
configuration and writes into them - leaves the defaults as they are, and a reset restores the documented value. -/
theorem C64_protected (c : Ctx) (h : H) (p : Prog) (hp : NoFull p) (h0 : Private 0 h) (h1 : Private 1 h)
    (hd : ∀ a < 2, h.heap[a]? = defaultArrays[a]?) (k : String) (d : Val) (chk : Validator)
    (he : defEntry c k = some (d, chk)) (hf : k ∉ Config.Spec.fileKeys) :
    let h' := (exec c p h).1
    (exec c (.reset k) h').2 = none ∧ (seen (exec c (.reset k) h').1).cfg.get k = some d := by
  intro h'
  obtain ⟨p0, e0⟩ := private_exec c p (h := h) (Or.inr hp) h0
  obtain ⟨p1, e1⟩ := private_exec c p (h := h) (Or.inr hp) h1
  have hd' : ∀ a < 2, h'.heap[a]? = defaultArrays[a]? := by
    intro a ha
    interval_cases a
    · exact e0.trans (hd 0 ha)
    · exact e1.trans (hd 1 ha)
  obtain ⟨cell, hc, hv⟩ := defaults_deref c h' hd' k d chk he
  have hr : chk.run c.py h'.fs d = .ok d := by
    rcases Config.default_reaccepted (fs := h'.fs) he with h | h
    · exact h
    · exact absurd h hf
  have hs : reset c h' k = (store h' k d, none) := by
    unfold reset setVal
    rw [hc]
    simp only [hv, hr]
  rw [exec, hs]
  refine ⟨rfl, ?_⟩
  have hg := lookup_map (store h' k d).heap (store h' k d).cfg k
  refine hg.trans ?_
  by_cases hx : ∃ xs, d = .arr xs
  · obtain ⟨xs, rfl⟩ := hx
    simp only [store, lookup_setKey_self, Option.map_some, deref]
    simp
  · rw [store_imm h' k d (fun xs hh => hx ⟨xs, hh⟩)]
    simp only [lookup_setKey_self, Option.map_some, deref]

/-- **C64 (contexts and arrays).** If nobody else refers to the array stored under a vector key, a context restores it exactly, whatever the
body does - including writes into the temporary array taken out of the configuration - as long as the block is left without an exception. -/
theorem C64_context (c : Ctx) (h h' : H) (k : String) (v : Arg) (body : Prog) (a : ℕ)
    (hk : k = "params.dipole" ∨ k = "params.ellipsoid") (hl : h.cfg.lookup k = some (.ref a)) (ha : 2 ≤ a) (hlen : a < h.heap.length)
    (henv : a ∉ h.env) (hone : ∀ j, (j, Cell.ref a) ∈ h.cfg → j = k) (hkeys : (h.cfg.map Prod.fst).Nodup)
    (hrun : exec c (.ctx k v body) h = (h', none)) :
    (seen h').cfg.get k = (seen h).cfg.get k := by
  have hget : (seen h).cfg.get k = some (.arr (h.heap.getD a [])) := by
    refine (lookup_map h.heap h.cfg k).trans ?_
    rw [hl]; rfl
  obtain ⟨dv, n, he⟩ : ∃ dv n, defEntry c k = some (dv, .vector n) := by
    rcases hk with rfl | rfl
    · exact ⟨_, 3, rfl⟩
    · exact ⟨_, 2, rfl⟩
  obtain ⟨cell, hcell⟩ : ∃ cell, defCell c k = some (cell, .vector n) := by
    unfold defCell
    rw [he]
    exact ⟨_, rfl⟩
  rw [exec, hl] at hrun
  simp only at hrun
  cases hs : assign c h k v with
  | mk h1 r =>
    rw [hs] at hrun
    cases r with
    | some e => simp at hrun
    | none =>
      simp only at hrun
      have hP : Private a h1 ∧ h1.heap[a]? = h.heap[a]? := by
        unfold assign at hs
        cases hv : v.val h with
        | none => rw [hv] at hs; simp at hs
        | some w =>
          rw [hv] at hs
          unfold setVal at hs
          rw [hcell] at hs
          simp only at hs
          cases hr : (Validator.vector n).run c.py h.fs w with
          | error e => rw [hr] at hs; simp at hs
          | ok u =>
            rw [hr] at hs
            simp only [Prod.mk.injEq, and_true] at hs
            obtain ⟨xs, rfl⟩ : ∃ xs, u = .arr xs := by
              unfold Validator.run Config.checkVector at hr
              simp only at hr
              split at hr
              · cases hr
              · split at hr
                · cases hr
                · cases hr; exact ⟨_, rfl⟩
            rw [← hs]
            refine ⟨⟨by simp [store]; omega, henv, ?_⟩, List.getElem?_append_left hlen⟩
            have hrest : ∀ (d : List (String × Cell)) (cell' : Cell), (d.map Prod.fst).Nodup → cell' ≠ .ref a →
                (∀ j, (j, Cell.ref a) ∈ d → j = k) → ∀ e ∈ setKey d k cell', e.2 ≠ .ref a := by
              intro d cell' hn hne hj
              induction d with
              | nil =>
                intro e hm
                simp only [setKey, List.mem_singleton] at hm
                rw [hm]; exact hne
              | cons f d ih =>
                obtain ⟨k', v'⟩ := f
                intro e hm
                simp only [List.map_cons, List.nodup_cons] at hn
                by_cases hkk : k' = k
                · simp only [setKey, if_pos hkk, List.mem_cons] at hm
                  rcases hm with hm | hm
                  · rw [hm]; exact hne
                  · intro hc
                    obtain ⟨e1, e2⟩ := e
                    simp only at hc
                    subst hc
                    have := hj e1 (List.mem_cons_of_mem _ hm)
                    apply hn.1
                    rw [hkk, ← this]
                    exact List.mem_map.2 ⟨_, hm, rfl⟩
                · simp only [setKey, if_neg hkk, List.mem_cons] at hm
                  rcases hm with hm | hm
                  · intro hc
                    rw [hm] at hc
                    simp only at hc
                    subst hc
                    exact hkk (hj k' List.mem_cons_self)
                  · exact ih hn.2 (fun j hm => hj j (List.mem_cons_of_mem _ hm)) e hm
            exact hrest h.cfg _ hkeys (by simp only [ne_eq, Cell.ref.injEq]; omega) hone
      obtain ⟨hP1, hP2⟩ := private_exec c body (h := h1) (Or.inl ha) hP.1
      cases hb : exec c body h1 with
      | mk h2 r =>
        rw [hb] at hrun hP1 hP2
        cases r with
        | some e => simp at hrun
        | none =>
          simp only at hrun
          have hd : deref h2.heap (.ref a) = .arr (h.heap.getD a []) := by
            simp only [deref, getD_eq, hP2, hP.2]
          rw [hd] at hrun
          unfold setVal at hrun
          rw [hcell] at hrun
          simp only at hrun
          cases hr : (Validator.vector n).run c.py h2.fs (.arr (h.heap.getD a [])) with
          | error e => rw [hr] at hrun; simp at hrun
          | ok u =>
            rw [hr] at hrun
            have := vector_arr hr
            subst this
            simp only [Prod.mk.injEq, and_true] at hrun
            rw [hget, ← hrun]
            refine (lookup_map _ _ k).trans ?_
            simp only [store, lookup_setKey_self, Option.map_some, deref]
            simp

/-! ### What sharing does -/

/-- Take the dipole vector out of the configuration and write into it. -/
def spoil (x : Sc) : Prog := .seq (.getItem "params.dipole") (.write 0 0 x)

/-- **C64 (shared defaults).** The freshly imported configuration holds the default arrays themselves: writing into the dipole vector taken
out of it changes the default. Neither `reset` nor `fullreset` brings the documented value back. -/
theorem C64_alias (c : Ctx) (fs : FS) (x : Sc) :
    let bad := Val.arr [x, .flt (.fin (-1501)), .flt (.fin 4797.1)]
    (exec c (.seq (spoil x) (.reset "params.dipole")) (init c fs)).2 = none ∧
    (seen (exec c (.seq (spoil x) (.reset "params.dipole")) (init c fs)).1).cfg.get "params.dipole" = some bad ∧
    (exec c (.seq (spoil x) .fullreset) (init c fs)).2 = none ∧
    (seen (exec c (.seq (spoil x) .fullreset) (init c fs)).1).cfg.get "params.dipole" = some bad :=
  ⟨rfl, rfl, rfl, rfl⟩

/-- **C64 (a kept reference defeats a context).** An array taken out before the context and written inside it is the object the context puts
back: the change survives. -/
theorem C64_context_alias (c : Ctx) (fs : FS) (x : Sc) (v : List Sc) (hv : v.length = 3) :
    let p := Prog.seq (.getItem "params.dipole") (.ctx "params.dipole" (.lit (.arr v)) (.write 0 0 x))
    (exec c p (init c fs)).2 = none ∧
    (seen (exec c p (init c fs)).1).cfg.get "params.dipole" = some (.arr [x, .flt (.fin (-1501)), .flt (.fin 4797.1)]) := by
  obtain ⟨a, b, d, rfl⟩ := List.length_eq_three.1 hv
  exact ⟨rfl, rfl⟩

/-! ## The hypotheses are met -/

/-- Both vector keys reset: the defaults are private. -/
def copied (c : Ctx) (fs : FS) : H := (exec c (.seq (.reset "params.dipole") (.reset "params.ellipsoid")) (init c fs)).1

theorem copied_private (c : Ctx) (fs : FS) : Private 0 (copied c fs) ∧ Private 1 (copied c fs) ∧
    (∀ a < 2, (copied c fs).heap[a]? = defaultArrays[a]?) := by
  have hc : (copied c fs).cfg = [("params.r_surf", .imm (.sc (.flt (.fin 6371.2)))), ("params.r_cmb", .imm (.sc (.flt (.fin 3485)))),
    ("params.dipole", .ref 2), ("params.ellipsoid", .ref 3), ("params.CHAOS_version", .imm (.sc (.str "7.18"))),
    ("params.cdf_to_mjd", .imm (.sc (.int 730485))),
    ("file.RC_index", .imm (.sc (.str (c.lib ++ "/RC_index.h5")))),
    ("file.GSM_spectrum", .imm (.sc (.str (c.lib ++ "/frequency_spectrum_gsm.npz")))),
    ("file.SM_spectrum", .imm (.sc (.str (c.lib ++ "/frequency_spectrum_sm.npz")))),
    ("file.Earth_conductivity", .imm (.sc (.str (c.lib ++ "/Earth_conductivity.dat")))),
    ("file.shp_coastline", .imm (.sc (.str (c.lib ++ "/ne_110m_coastline.zip")))),
    ("plots.figure_width", .imm (.sc (.flt (.fin 6.3))))] := rfl
  have hl : (copied c fs).heap.length = 4 := rfl
  have he : (copied c fs).env = [] := rfl
  refine ⟨⟨by omega, by simp [he], ?_⟩, ⟨by omega, by simp [he], ?_⟩, ?_⟩
  · rw [hc]; simp
  · rw [hc]; simp
  · intro a ha
    interval_cases a <;> rfl

/-- The dipole vector of that configuration meets the hypotheses of `C64_context`, with a body that writes into the temporary array. -/
theorem copied_entry (c : Ctx) (fs : FS) (x : Sc) : (copied c fs).cfg.lookup "params.dipole" = some (.ref 2) ∧ 2 < (copied c fs).heap.length ∧
    2 ∉ (copied c fs).env ∧ ((copied c fs).cfg.map Prod.fst).Nodup ∧
    (exec c (.ctx "params.dipole" (.lit (.arr [.int 1, .int 2, .int 3])) (spoil x)) (copied c fs)).2 = none := by
  refine ⟨rfl, by rw [show (copied c fs).heap.length = 4 from rfl]; omega, by simp [show (copied c fs).env = [] from rfl], ?_, rfl⟩
  have : (copied c fs).cfg.map Prod.fst = Config.Spec.documentedKeys := rfl
  rw [this]
  exact Config.keys_nodup

/-- A program without `getItem` that assigns its own array and then overwrites it: the configuration keeps the old content. -/
example (c : Ctx) (fs : FS) :
    let p := Prog.seq (.newArray [.int 1, .int 2, .int 3]) (.set "params.dipole" (.var 0))
    let q := Prog.write 0 0 (.int 9)
    NoGet p ∧ Outside q ∧ (exec c q (exec c p (init c fs)).1).1.heap[2]? = some [.int 9, .int 2, .int 3] ∧
      (seen (exec c q (exec c p (init c fs)).1).1).cfg.get "params.dipole" = some (.arr [.int 1, .int 2, .int 3]) :=
  ⟨⟨trivial, trivial⟩, trivial, rfl, rfl⟩

end ChaosMagPy.ConfigHeap
