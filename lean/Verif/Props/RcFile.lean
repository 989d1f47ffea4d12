import Verif.Model.RcFile
import Verif.Props.Igrf
/-!
# C72: files of the RC-index
-/
namespace ChaosMagPy.Spec
open ChaosMagPy.Shc (isSpace)

/-- An entry of the RC-index: time, index, external part, internal part and flag. -/
structure RcEntry where
  time : ℝ
  rc : ℝ
  external : ℝ
  internal : ℝ
  flag : List Char

/-- Blanks and tabulators are the only white space of the line. -/
def PlainSpace (line : List Char) : Prop := ∀ c ∈ line, isSpace c = true → c = ' ' ∨ c = '\t'

/-- The line has the four numbers and the flag of the entry, separated by blanks, and possibly a comment after a `#`. -/
def IsEntry (line : List Char) (r : RcEntry) : Prop :=
  ∃ body comment a b c d, line = body ++ comment ∧ (comment = [] ∨ ∃ t, comment = '#' :: t) ∧ '#' ∉ body ∧ PlainSpace body ∧
    Words body [a, b, c, d, r.flag] ∧ Denotes a r.time ∧ Denotes b r.rc ∧ Denotes c r.external ∧ Denotes d r.internal

/-- The lines of an RC-index file: comments, blank lines, and one line for each entry. -/
inductive RcLines : List (List Char) → List RcEntry → Prop
  | nil : RcLines [] []
  | comment (t ls rs) : RcLines ls rs → RcLines (('#' :: t) :: ls) rs
  | blank (line ls rs) : Words line [] → PlainSpace line → RcLines ls rs → RcLines (line :: ls) rs
  | entry (line ls r rs) : IsEntry line r → RcLines ls rs → RcLines (line :: ls) (r :: rs)

/-- The text of an RC-index file. -/
def RcText (content : List Char) (rs : List RcEntry) : Prop :=
  ∃ ls, content = ls.flatMap (fun l => l ++ ['\n']) ∧ (∀ l ∈ ls, '\n' ∉ l) ∧ RcLines ls rs

/-- A flag in ASCII characters. -/
def Ascii (w : List Char) : Prop := ∀ c ∈ w, c.toNat < 128

end ChaosMagPy.Spec

namespace ChaosMagPy.Rc
open ChaosMagPy.Spec
open ChaosMagPy.Shc (lines tokensGo parseNum)

theorem takeWhile_comment (body comment : List Char) (hc : comment = [] ∨ ∃ t, comment = '#' :: t) (hb : '#' ∉ body) :
    (body ++ comment).takeWhile (fun c => c ≠ '#') = body := by
  induction body with
  | nil => rcases hc with rfl | ⟨t, rfl⟩ <;> simp
  | cons c body ih =>
    rw [List.mem_cons, not_or] at hb
    rw [List.cons_append, List.takeWhile_cons, if_pos (by simpa using Ne.symm hb.1), ih hb.2]

theorem rowWords_entry {line : List Char} {r : RcEntry} (h : IsEntry line r) :
    rowWords line ≠ [] ∧ parseRow (rowWords line) = .ok ⟨r.time, r.rc, r.external, r.internal, r.flag⟩ := by
  obtain ⟨body, comment, a, b, c, d, rfl, hc, hb, -, hw, h1, h2, h3, h4⟩ := h
  have : rowWords (body ++ comment) = [a, b, c, d, r.flag] := by
    unfold rowWords
    rw [takeWhile_comment body comment hc hb]
    exact Igrf.tokens_words _ _ hw
  rw [this]
  refine ⟨by simp, ?_⟩
  simp only [parseRow, Shc.parseNum_of h1, Shc.parseNum_of h2, Shc.parseNum_of h3, Shc.parseNum_of h4]

theorem rowWords_blank {line : List Char} (h : Words line []) : rowWords line = [] := by
  unfold rowWords
  refine Igrf.tokens_words [] _ ?_
  intro c hc
  exact h c (List.takeWhile_sublist _ |>.subset hc)

theorem rows_ok {ls : List (List Char)} {rs : List RcEntry} (h : RcLines ls rs) :
    ((ls.map rowWords).filter (· ≠ [])).mapM parseRow = .ok (rs.map fun r => ⟨r.time, r.rc, r.external, r.internal, r.flag⟩) := by
  induction h with
  | nil => rfl
  | comment t ls rs _ ih =>
    have : rowWords ('#' :: t) = [] := by
      unfold rowWords
      rw [List.takeWhile_cons, if_neg (by simp)]
      rfl
    rw [List.map_cons, this, List.filter_cons_of_neg (by simp)]
    exact ih
  | blank line ls rs h1 _ _ ih =>
    rw [List.map_cons, rowWords_blank h1, List.filter_cons_of_neg (by simp)]
    exact ih
  | entry line ls r rs h1 _ ih =>
    obtain ⟨h2, h3⟩ := rowWords_entry h1
    rw [List.map_cons, List.filter_cons_of_pos (by simpa using h2), List.mapM_cons, h3, ih]
    rfl

/-- The table of the entries. -/
def tableOf (rs : List RcEntry) : Table where
  time := rs.map RcEntry.time
  rc := rs.map RcEntry.rc
  rcE := rs.map RcEntry.external
  rcI := rs.map RcEntry.internal
  flag := rs.map RcEntry.flag

theorem readCsv_ok {content : List Char} {rs : List RcEntry} (h : RcText content rs) : readCsv content = .ok (tableOf rs) := by
  obtain ⟨ls, rfl, hl, h⟩ := h
  unfold readCsv
  rw [Igrf.lines_text ls hl, rows_ok h]
  simp only [bind, Except.bind, pure, Except.pure, tableOf, List.map_map, Function.comp_def]

/-- **C72** (reading). A text of comments, blank lines and one line for each entry is read as the columns of these entries, in their order. -/
theorem C72_read (fs : FS) (path : String) (content : List Char) (rs : List RcEntry) (hf : fs path = some (.text content)) (h : RcText content rs) :
    ∃ t, loadDat fs path = .ok t ∧ t.time = rs.map RcEntry.time ∧ t.rc = rs.map RcEntry.rc ∧ t.rcE = rs.map RcEntry.external ∧
      t.rcI = rs.map RcEntry.internal ∧ t.flag = rs.map RcEntry.flag := by
  refine ⟨tableOf rs, ?_, rfl, rfl, rfl, rfl, rfl⟩
  unfold loadDat
  rw [hf]
  exact readCsv_ok h

/-- A word that is not a number. -/
theorem parseNum_none {w : List Char} (h : ∀ x : ℝ, ¬ Denotes w x) : parseNum (K := ℝ) w = none := by
  cases hp : parseNum (K := ℝ) w with
  | none => rfl
  | some x => exact absurd (Shc.parseNum_iff.1 hp) (h x)

/-- **C72** (bad rows). If one of the first four of the five words of a line is not a number then reading raises ValueError. -/
theorem C72_read_error (fs : FS) (path : String) (before after : List (List Char)) (body : List Char) (rs : List RcEntry) (a b c d flag : List Char)
    (hf : fs path = some (.text ((before ++ body :: after).flatMap fun l => l ++ ['\n']))) (hl : ∀ l ∈ before ++ body :: after, '\n' ∉ l)
    (hb : RcLines before rs) (hh : '#' ∉ body) (hw : Words body [a, b, c, d, flag])
    (hn : ∃ w ∈ [a, b, c, d], ∀ x : ℝ, ¬ Denotes w x) : loadDat fs path = .error .valueError := by
  have hrow : parseRow [a, b, c, d, flag] = .error .valueError := by
    obtain ⟨w, hw, hn⟩ := hn
    have := parseNum_none hn
    simp only [List.mem_cons, List.not_mem_nil, or_false] at hw
    unfold parseRow
    simp only
    rcases hw with rfl | rfl | rfl | rfl
    · rw [this]
    · rw [this]; cases parseNum (K := ℝ) a <;> rfl
    · rw [this]; cases parseNum (K := ℝ) a <;> cases parseNum (K := ℝ) b <;> rfl
    · rw [this]; cases parseNum (K := ℝ) a <;> cases parseNum (K := ℝ) b <;> cases parseNum (K := ℝ) c <;> rfl
  have hwords : rowWords body = [a, b, c, d, flag] := by
    unfold rowWords
    have := takeWhile_comment body [] (.inl rfl) hh
    rw [List.append_nil] at this
    rw [this]
    exact Igrf.tokens_words _ _ hw
  unfold loadDat
  rw [hf]
  simp only
  unfold readCsv
  rw [Igrf.lines_text _ hl, List.map_append, List.filter_append, List.mapM_append, rows_ok hb, List.map_cons, hwords, List.filter_cons_of_pos (by simp),
    List.mapM_cons, hrow]
  rfl

/-! ### Saving -/

theorem fold_columns (fs : FS) (path : String) (t : Table) :
    ∃ fs', (columns t).foldl (writeColumn path) (createH5 fs path, false) = (fs', !(t.flag.all isAscii)) ∧ (∀ p, p ≠ path → fs' p = fs p) ∧
      fs' path = some (.h5 [("time", .floats t.time), ("RC", .floats t.rc), ("RC_e", .floats t.rcE), ("RC_i", .floats t.rcI),
        ("flag", .bytes (t.flag.map fun w => if t.flag.all isAscii then w.take 1 else []))]) := by
  have h1 : ¬ ("time" = "flag") := by decide
  have h2 : ¬ ("RC" = "flag") := by decide
  have h3 : ¬ ("RC_e" = "flag") := by decide
  have h4 : ¬ ("RC_i" = "flag") := by decide
  simp only [columns, List.foldl_cons, List.foldl_nil, writeColumn, Bool.false_eq_true, if_false, h1, h2, h3, h4]
  by_cases h : t.flag.all isAscii = true
  · rw [if_pos trivial, if_pos h]
    refine ⟨_, by rw [h]; rfl, ?_, ?_⟩
    · intro p hp
      simp only [setDataset, addDataset, createH5, if_neg hp]
    · simp only [setDataset, addDataset, createH5, if_true, List.nil_append, List.cons_append, List.map_cons, List.map_nil, h1, h2, h3, h4, if_false, h]
  · rw [if_pos trivial, if_neg h]
    refine ⟨_, by rw [Bool.not_eq_true] at h; rw [h]; rfl, ?_, ?_⟩
    · intro p hp
      simp only [addDataset, createH5, if_neg hp]
    · simp only [addDataset, createH5, if_true, List.nil_append, List.cons_append, h, Bool.false_eq_true, if_false]

theorem all_ascii {l : List (List Char)} : l.all isAscii = true ↔ ∀ w ∈ l, Ascii w := by
  simp [isAscii, Ascii, List.all_eq_true]

theorem saveH5_of {writable : String → Bool} {fs : FS} {filepath readFrom : String} {content : List Char} {rs : List RcEntry}
    (hf : fs readFrom = some (.text content)) (h : RcText content rs) (hw : writable filepath = true) :
    saveH5 writable fs filepath readFrom = (columns (tableOf rs)).foldl (writeColumn filepath) (createH5 fs filepath, false) := by
  unfold saveH5 loadDat
  rw [hf]
  simp only [readCsv_ok h]
  rw [if_pos hw]

/-- **C72** (saving). With flags in ASCII characters the text is saved as an HDF5 file of the five columns, the flags by their first character, without
a warning; no other file changes. The file read may be the one written. -/
theorem C72_save (writable : String → Bool) (fs : FS) (filepath readFrom : String) (content : List Char) (rs : List RcEntry)
    (hf : fs readFrom = some (.text content)) (h : RcText content rs) (hw : writable filepath = true) (ha : ∀ r ∈ rs, Ascii r.flag) :
    ∃ fs', saveH5 writable fs filepath readFrom = (fs', false) ∧ (∀ p, p ≠ filepath → fs' p = fs p) ∧
      fs' filepath = some (.h5 [("time", .floats (rs.map RcEntry.time)), ("RC", .floats (rs.map RcEntry.rc)), ("RC_e", .floats (rs.map RcEntry.external)),
        ("RC_i", .floats (rs.map RcEntry.internal)), ("flag", .bytes (rs.map fun r => r.flag.take 1))]) := by
  rw [saveH5_of hf h hw]
  obtain ⟨fs', h1, h2, h3⟩ := fold_columns fs filepath (tableOf rs)
  have hall : (tableOf rs).flag.all isAscii = true := by
    rw [all_ascii]
    intro w hw
    obtain ⟨r, hr, rfl⟩ := List.mem_map.1 hw
    exact ha r hr
  rw [hall] at h1 h3
  refine ⟨fs', h1, h2, ?_⟩
  rw [h3]
  simp [tableOf, Function.comp_def]

/-- **C72** (the two formats are equivalent). Whatever the flags are, the model computes the same SM coefficients from the saved file as from the text:
it gets the times and the external and internal parts of the entries from both. -/
theorem C72_equivalent (writable : String → Bool) (fs : FS) (filepath readFrom : String) (content : List Char) (rs : List RcEntry)
    (hf : fs readFrom = some (.text content)) (h : RcText content rs) (hw : writable filepath = true) :
    rcFile fs readFrom = .ok { time := rs.map RcEntry.time, rcE := rs.map RcEntry.external, rcI := rs.map RcEntry.internal } ∧
    rcFile (saveH5 writable fs filepath readFrom).1 filepath = rcFile fs readFrom := by
  have h1 : rcFile fs readFrom = .ok { time := rs.map RcEntry.time, rcE := rs.map RcEntry.external, rcI := rs.map RcEntry.internal } := by
    unfold rcFile loadDat
    rw [hf]
    simp only [readCsv_ok h]
    rfl
  refine ⟨h1, ?_⟩
  rw [h1, saveH5_of hf h hw]
  obtain ⟨fs', h1, h2, h3⟩ := fold_columns fs filepath (tableOf rs)
  rw [h1]
  unfold rcFile
  simp only [h3]
  rfl

/-- **C72** (failures). Whatever happens, no other file than the one to be written changes; if the text cannot be read or the file cannot be opened for
writing then no file changes at all, and there is a warning. -/
theorem C72_failure (writable : String → Bool) (fs : FS) (filepath readFrom : String) :
    (∀ p, p ≠ filepath → (saveH5 writable fs filepath readFrom).1 p = fs p) ∧
    (writable filepath = false ∨ fs readFrom = none ∨ (∃ ds, fs readFrom = some (.h5 ds)) ∨ (∃ e, loadDat fs readFrom = .error e) →
      saveH5 writable fs filepath readFrom = (fs, true)) := by
  constructor
  · intro p hp
    unfold saveH5
    cases loadDat fs readFrom with
    | error e => rfl
    | ok t =>
      simp only
      split_ifs
      · obtain ⟨fs', h1, h2, -⟩ := fold_columns fs filepath t
        rw [h1]
        exact h2 p hp
      · rfl
  · intro h
    unfold saveH5
    rcases h with h | h | ⟨ds, h⟩ | ⟨e, h⟩
    · cases loadDat fs readFrom with
      | error e => rfl
      | ok t => simp only [h, Bool.false_eq_true, if_false]
    · unfold loadDat; rw [h]
    · unfold loadDat; rw [h]
    · rw [h]

/-- **C72** (a flag that is not ASCII). Saving only warns, but the old file is replaced by one with the numbers and empty flags. -/
theorem C72_nonascii (writable : String → Bool) (fs : FS) (filepath readFrom : String) (content : List Char) (rs : List RcEntry)
    (hf : fs readFrom = some (.text content)) (h : RcText content rs) (hw : writable filepath = true) (ha : ∃ r ∈ rs, ¬ Ascii r.flag) :
    ∃ fs', saveH5 writable fs filepath readFrom = (fs', true) ∧
      fs' filepath = some (.h5 [("time", .floats (rs.map RcEntry.time)), ("RC", .floats (rs.map RcEntry.rc)), ("RC_e", .floats (rs.map RcEntry.external)),
        ("RC_i", .floats (rs.map RcEntry.internal)), ("flag", .bytes (rs.map fun _ => []))]) := by
  rw [saveH5_of hf h hw]
  obtain ⟨fs', h1, h2, h3⟩ := fold_columns fs filepath (tableOf rs)
  have hall : (tableOf rs).flag.all isAscii = false := by
    rw [← Bool.not_eq_true, all_ascii]
    obtain ⟨r, hr, ha⟩ := ha
    exact fun h => ha (h _ (List.mem_map.2 ⟨r, hr, rfl⟩))
  rw [hall] at h1 h3
  refine ⟨fs', h1, ?_⟩
  rw [h3]
  simp [tableOf, Function.comp_def]

/-! ### An example -/

/-- A digit denotes itself. -/
theorem denotes_digit (c : Char) (hc : '0' ≤ c ∧ c ≤ '9') : Denotes [c] ((digitsValue [c] : ℕ) : ℝ) :=
  ⟨[], 1, [c], [], [], [], 0, .inl ⟨rfl, rfl⟩, by simpa [AllDigits] using hc, (fun _ h => nomatch h), .inl (by simp), .inr ⟨rfl, rfl⟩, .inl ⟨rfl, rfl⟩, rfl,
    by simp [digitsValue]⟩

theorem words_cons {w rest : List Char} {ws : List (List Char)} (hw : w ≠ []) (hs : ∀ c ∈ w, Shc.isSpace c = false) (h : Words (' ' :: rest) ws) :
    Words (w ++ ' ' :: rest) (w :: ws) :=
  ⟨[], ' ' :: rest, rfl, (fun _ h => nomatch h), hw, hs, .inr ⟨' ', rest, rfl, rfl⟩, h⟩

theorem words_blank {line : List Char} {w : List Char} {ws : List (List Char)} (h : Words line (w :: ws)) : Words (' ' :: line) (w :: ws) := by
  obtain ⟨pre, rest, rfl, h1, h2, h3, h4, h5⟩ := h
  refine ⟨' ' :: pre, rest, rfl, ?_, h2, h3, h4, h5⟩
  intro c hc
  rcases List.mem_cons.1 hc with rfl | hc
  · rfl
  · exact h1 c hc

/-- A file with a comment, a blank line and an entry with a comment. -/
theorem ex_text : RcText ("# RC-index".toList ++ '\n' :: '\n' :: ['1', ' ', '7', ' ', '5', ' ', '2', ' ', 'D', ' ', '#', 'x', '\n'])
    [⟨1, 7, 5, 2, ['D']⟩] ∧ Ascii ['D'] ∧ ¬ Ascii ['é'] := by
  refine ⟨⟨["# RC-index".toList, [], ['1', ' ', '7', ' ', '5', ' ', '2', ' ', 'D', ' ', '#', 'x']], by decide, by decide, ?_⟩, ?_, ?_⟩
  · refine .comment " RC-index".toList _ _ (.blank [] _ _ (fun _ h => nomatch h) (fun _ h => nomatch h) (.entry _ _ _ _ ?_ .nil))
    refine ⟨['1', ' ', '7', ' ', '5', ' ', '2', ' ', 'D', ' '], ['#', 'x'], ['1'], ['7'], ['5'], ['2'], rfl, .inr ⟨_, rfl⟩, by decide, ?_, ?_, ?_, ?_, ?_, ?_⟩
    · intro c hc hs
      simp only [List.mem_cons, List.not_mem_nil, or_false] at hc
      rcases hc with rfl | rfl | rfl | rfl | rfl | rfl | rfl | rfl | rfl | rfl <;> first | exact .inl rfl | exact absurd hs (by decide)
    · have one : ∀ d : Char, Shc.isSpace d = false → ∀ c ∈ [d], Shc.isSpace c = false := by
        intro d hd c hc
        rw [List.mem_singleton.1 hc]
        exact hd
      have h5 : Words (['D'] ++ ' ' :: []) [['D']] := words_cons (by simp) (one _ rfl) (by
        intro c hc
        rw [List.mem_singleton.1 hc]
        rfl)
      exact words_cons (w := ['1']) (by simp) (one _ rfl) (words_blank (words_cons (w := ['7']) (by simp) (one _ rfl) (words_blank
        (words_cons (w := ['5']) (by simp) (one _ rfl) (words_blank (words_cons (w := ['2']) (by simp) (one _ rfl) (words_blank h5)))))))
    · simpa [digitsValue] using denotes_digit '1' (by decide)
    · simpa [digitsValue] using denotes_digit '7' (by decide)
    · simpa [digitsValue] using denotes_digit '5' (by decide)
    · simpa [digitsValue] using denotes_digit '2' (by decide)
  · intro c hc
    rw [List.mem_singleton.1 hc]
    decide
  · intro h
    exact absurd (h 'é' (by simp)) (by decide)

end ChaosMagPy.Rc
