import Verif.Lemmas.Config
import Verif.Spec.Config
/-! The generic invariant for configuration programs. -/
namespace ChaosMagPy.Config
open Spec

/-- File systems only gained files. -/
def FSle (a b : FS) : Prop :=
  (∀ p, a.pathExists p = true → b.pathExists p = true) ∧ b.fdExists = a.fdExists

theorem FSle.refl (a : FS) : FSle a a := ⟨fun _ h => h, rfl⟩

theorem defaultDict_keys (c : Ctx) : (defaultDict c).map Prod.fst = documentedKeys := rfl

theorem keys_nodup : documentedKeys.Nodup := by decide

theorem defEntry_isSome (c : Ctx) (k : String) : (defEntry c k).isSome ↔ k ∈ documentedKeys := by
  have : ∀ l : List (String × Val × Validator), (l.lookup k).isSome ↔ k ∈ l.map Prod.fst := by
    intro l
    induction l with
    | nil => simp
    | cons e l ih =>
      obtain ⟨k', v⟩ := e
      by_cases h : k = k'
      · subst h; simp [List.lookup]
      · have h' : (k == k') = false := by simpa using h
        simp [List.lookup, h', ih, h]
  exact this _

theorem defaultDict_get (c : Ctx) (k : String) :
    Dict.get (defaultDict c) k = (defEntry c k).map Prod.fst := by
  have : ∀ l : List (String × Val × Validator),
      Dict.get (l.map fun e => (e.1, e.2.1)) k = (l.lookup k).map Prod.fst := by
    intro l
    induction l with
    | nil => rfl
    | cons e l ih =>
      obtain ⟨k', v⟩ := e
      simp only [List.map_cons, Dict.get_cons, ih]
      by_cases h : k = k'
      · subst h; simp [List.lookup]
      · have h' : (k == k') = false := by simpa using h
        simp [List.lookup, h', h]
  exact this _

/-- The generic invariant: exact key list, and a predicate on all entries. -/
def Inv (P : FS → String → Val → Prop) (s : State) : Prop :=
  s.cfg.map Prod.fst = documentedKeys ∧ ∀ k v, s.cfg.get k = some v → P s.fs k v

section
variable {c : Ctx} {P : FS → String → Val → Prop} {Q : Val → Prop}

theorem Inv.setItem
    (hset : ∀ fs k d chk v w, defEntry c k = some (d, chk) → Q v → chk.run c.py fs v = .ok w →
      P fs k w)
    {s s' : State} {k : String} {v : Val} (hv : Q v) (hI : Inv P s)
    (h : setItem c s k v = .ok s') : Inv P s' ∧ s'.fs = s.fs := by
  obtain ⟨d, chk, w, he, hr, rfl⟩ := setItem_ok c s s' k v h
  refine ⟨⟨?_, ?_⟩, rfl⟩
  · have : k ∈ s.cfg.map Prod.fst := by
      rw [hI.1, ← defEntry_isSome c, he]; rfl
    simpa [Dict.keys_set_of_mem _ _ _ this] using hI.1
  · intro j u hu
    simp only [Dict.get_set] at hu
    split_ifs at hu with hj
    · cases hu; subst hj; exact hset _ _ _ _ _ _ he hv hr
    · exact hI.2 _ _ hu

theorem Dict.update_get (e : Dict) : ∀ (d : Dict) (k : String), (e.map Prod.fst).Nodup →
    (d.update e).get k = (e.get k).or (d.get k) := by
  induction e with
  | nil => intro d k _; simp [Dict.update, Dict.get]
  | cons a e ih =>
    obtain ⟨k', v'⟩ := a
    intro d k hn
    simp only [List.map_cons, List.nodup_cons] at hn
    have : Dict.update d ((k', v') :: e) = Dict.update (d.set k' v') e := rfl
    rw [this, ih _ _ hn.2, Dict.get_set, Dict.get_cons]
    by_cases h : k = k'
    · subst h
      have : Dict.get e k = none := by
        rw [← Option.not_isSome_iff_eq_none, Dict.get_isSome_iff]; exact hn.1
      simp [this]
    · simp [h]

theorem Dict.update_keys (e : Dict) : ∀ d : Dict,
    (∀ k ∈ e.map Prod.fst, k ∈ d.map Prod.fst) →
    (d.update e).map Prod.fst = d.map Prod.fst := by
  induction e with
  | nil => intro d _; rfl
  | cons a e ih =>
    obtain ⟨k', v'⟩ := a
    intro d h
    have hk : k' ∈ d.map Prod.fst := h k' (by simp)
    have e1 : Dict.update d ((k', v') :: e) = Dict.update (d.set k' v') e := rfl
    rw [e1, ih _ (fun k hk' => ?_), Dict.keys_set_of_mem _ _ _ hk]
    rw [Dict.keys_set_of_mem _ _ _ hk]
    exact h k (by simp only [List.map_cons, List.mem_cons]; exact Or.inr hk')

theorem fullreset_cfg {c : Ctx} {s : State} (h : s.cfg.map Prod.fst = documentedKeys) :
    (fullreset c s).cfg = defaultDict c := by
  have hk : (s.cfg.update (defaultDict c)).map Prod.fst = documentedKeys := by
    rw [Dict.update_keys, h]
    intro k hk; rw [h]; rwa [defaultDict_keys] at hk
  refine Dict.ext_of_keys _ _ (hk.trans (defaultDict_keys c).symm) ?_ fun k => ?_
  · have hk' : ((fullreset c s).cfg.map Prod.fst) = documentedKeys := by
      rw [fullreset]; exact hk
    rw [hk']; exact keys_nodup
  · have e : (fullreset c s).cfg = Dict.update s.cfg (defaultDict c) := by rw [fullreset]
    rw [e, Dict.update_get _ _ _ (by rw [defaultDict_keys]; exact keys_nodup)]
    have hs : (Dict.get (defaultDict c) k).isSome ↔ k ∈ documentedKeys := by
      rw [Dict.get_isSome_iff, defaultDict_keys]
    cases hv : Dict.get (defaultDict c) k with
    | some v => rfl
    | none =>
      have hm : k ∉ documentedKeys := fun hm => by
        have := hs.2 hm; rw [hv] at this; cases this
      have h1 : Dict.get s.cfg k = none := by
        rw [← Option.not_isSome_iff_eq_none, Dict.get_isSome_iff, h]; exact hm
      rw [h1, Option.or_none]

theorem Inv.load
    (hset : ∀ fs k d chk v w, defEntry c k = some (d, chk) → Q v → chk.run c.py fs v = .ok w →
      P fs k w) :
    ∀ (es : List (String × Val)) (s : State), (∀ e ∈ es, Q e.2) → Inv P s →
      Inv P (Config.load c s es).1 ∧ (Config.load c s es).1.fs = s.fs
  | [], s, _, hI => ⟨hI, rfl⟩
  | (k, v) :: rest, s, hQ, hI => by
    simp only [Config.load]
    split
    · exact ⟨hI, rfl⟩
    · rename_i s' h
      have h1 := Inv.setItem hset (hQ (k, v) (by simp)) hI h
      have h2 := Inv.load hset rest s' (fun e he => hQ e (by simp [he])) h1.1
      exact ⟨h2.1, h2.2.trans h1.2⟩

/-- `Q` holds of every literal in the program. -/
def AllLits (Q : Val → Prop) : Prog → Prop
  | .set _ v => Q v
  | .load es => ∀ e ∈ es, Q e.2
  | .ctx _ v p => Q v ∧ AllLits Q p
  | .seq p q => AllLits Q p ∧ AllLits Q q
  | .tryExcept p => AllLits Q p
  | _ => True

theorem Inv.exec
    (hset : ∀ fs k d chk v w, defEntry c k = some (d, chk) → Q v → chk.run c.py fs v = .ok w →
      P fs k w)
    (hdef : ∀ fs k d chk, defEntry c k = some (d, chk) → P fs k d ∧ Q d)
    (hPQ : ∀ fs k v, P fs k v → Q v)
    (hup : ∀ fs fs' k v, FSle fs fs' → P fs k v → P fs' k v)
    (D : Prop) (hdown : D → ∀ fs fs' k v, fs'.fdExists = fs.fdExists → P fs k v → P fs' k v) :
    ∀ (p : Prog) (s : State), (D ∨ NoDelete p) → AllLits Q p → Inv P s →
      Inv P (Config.exec c p s).1
  | .skip, s, _, _, hI => hI
  | .set k v, s, _, hQ, hI => by
    simp only [Config.exec]
    split
    · rename_i s' h; exact (Inv.setItem hset hQ hI h).1
    · exact hI
  | .reset k, s, _, _, hI => by
    simp only [Config.exec]
    split
    · rename_i s' h
      unfold Config.reset at h
      split at h
      · cases h
      · rename_i d chk he
        exact (Inv.setItem hset (hdef s.fs _ _ _ he).2 hI h).1
    · exact hI
  | .fullreset, s, _, _, hI => by
    simp only [Config.exec]
    have h := fullreset_cfg (c := c) hI.1
    refine ⟨by rw [h]; exact defaultDict_keys c, ?_⟩
    intro k v hv
    rw [h, defaultDict_get] at hv
    cases he : defEntry c k with
    | none => simp [he] at hv
    | some e =>
      obtain ⟨d, chk⟩ := e
      simp [he] at hv
      subst hv
      exact (hdef _ _ _ _ he).1
  | .load es, s, _, hQ, hI => (Inv.load hset es s hQ hI).1
  | .ctx k v body, s, hD, hQ, hI => by
    simp only [Config.exec]
    split
    · exact hI
    · rename_i old hold
      split
      · exact hI
      · rename_i s1 h1
        have I1 := (Inv.setItem hset hQ.1 hI h1).1
        have I2 := Inv.exec hset hdef hPQ hup D hdown body s1 hD hQ.2 I1
        split
        · rename_i s2 e h2
          rw [h2] at I2; exact I2
        · rename_i s2 h2
          rw [h2] at I2
          split
          · exact I2
          · rename_i s3 h3
            exact (Inv.setItem hset (hPQ _ _ _ (hI.2 _ _ hold)) I2 h3).1
  | .seq p q, s, hD, hQ, hI => by
    simp only [Config.exec]
    have hDp : D ∨ NoDelete p := hD.imp id And.left
    have hDq : D ∨ NoDelete q := hD.imp id And.right
    have I1 := Inv.exec hset hdef hPQ hup D hdown p s hDp hQ.1 hI
    split
    · rename_i s1 e h1
      rw [h1] at I1; exact I1
    · rename_i s1 h1
      rw [h1] at I1
      exact Inv.exec hset hdef hPQ hup D hdown q s1 hDq hQ.2 I1
  | .tryExcept p, s, hD, hQ, hI => Inv.exec hset hdef hPQ hup D hdown p s hD hQ hI
  | .raise, s, _, _, hI => hI
  | .createFile path, s, _, _, hI => by
    refine ⟨hI.1, fun k v hv => hup s.fs _ k v ⟨?_, rfl⟩ (hI.2 k v hv)⟩
    intro p hp
    show (if p = path then true else s.fs.pathExists p) = true
    split_ifs
    · rfl
    · exact hp
  | .deleteFile path, s, hD, _, hI => by
    rcases hD with hD | hD
    · exact ⟨hI.1, fun k v hv => hdown hD s.fs _ k v rfl (hI.2 k v hv)⟩
    · exact absurd hD (by simp [NoDelete])

end

theorem Inv.init {c : Ctx} {P : FS → String → Val → Prop}
    (hdef : ∀ fs k d chk, defEntry c k = some (d, chk) → P fs k d) (fs : FS) :
    Inv P (init c fs) := by
  refine ⟨defaultDict_keys c, fun k v hv => ?_⟩
  change Dict.get (defaultDict c) k = some v at hv
  rw [defaultDict_get] at hv
  cases he : defEntry c k with
  | none => simp [he] at hv
  | some e =>
    obtain ⟨d, chk⟩ := e
    simp [he] at hv
    subst hv
    exact hdef _ _ _ _ he

theorem allLits_true : ∀ p : Prog, AllLits (fun _ => True) p
  | .set _ _ => trivial
  | .load _ => fun _ _ => trivial
  | .ctx _ _ p => ⟨trivial, allLits_true p⟩
  | .seq p q => ⟨allLits_true p, allLits_true q⟩
  | .tryExcept p => allLits_true p
  | .skip | .reset _ | .fullreset | .raise | .createFile _ | .deleteFile _ => trivial

/-- Case analysis over the twelve table rows. -/
theorem defEntry_cases {c : Ctx} {k : String} {d : Val} {chk : Validator}
    (h : defEntry c k = some (d, chk)) : (k, d, chk) ∈ defaults c.lib := by
  have : ∀ l : List (String × Val × Validator), l.lookup k = some (d, chk) → (k, d, chk) ∈ l := by
    intro l
    induction l with
    | nil => simp
    | cons e l ih =>
      obtain ⟨k', v⟩ := e
      by_cases h : k = k'
      · subst h; simp [List.lookup]; rintro rfl; simp
      · have h' : (k == k') = false := by simpa using h
        simp only [List.lookup, h']
        intro hh
        exact List.mem_cons_of_mem _ (ih hh)
  exact this _ h

theorem defEntry_of_mem {c : Ctx} {k : String} {d : Val} {chk : Validator}
    (h : (k, d, chk) ∈ defaults c.lib) : defEntry c k = some (d, chk) := by
  simp only [defaults, List.mem_cons, List.not_mem_nil, or_false, Prod.mk.injEq] at h
  rcases h with ⟨rfl, rfl, rfl⟩ | ⟨rfl, rfl, rfl⟩ | ⟨rfl, rfl, rfl⟩ | ⟨rfl, rfl, rfl⟩ |
    ⟨rfl, rfl, rfl⟩ | ⟨rfl, rfl, rfl⟩ | ⟨rfl, rfl, rfl⟩ | ⟨rfl, rfl, rfl⟩ | ⟨rfl, rfl, rfl⟩ |
    ⟨rfl, rfl, rfl⟩ | ⟨rfl, rfl, rfl⟩ | ⟨rfl, rfl, rfl⟩ <;> rfl

end ChaosMagPy.Config
