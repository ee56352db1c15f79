import Verif.SpecfileProps
import Verif.IniProps
import Verif.PythonProps

/-!
# A specfile that is written is read back (C198)

Files with any number of scans, each with a title, any header lines, labels and rows of numbers, in the format of the files of the package, with
either end of line; read in C++ and in Python (PySimpleSpecfile.pyx).
-/

set_option linter.unusedSectionVars false

namespace Fisx
namespace Specfile

/-! ## Specification -/

/-- A scan as it is written. -/
structure Scan where
  /-- What follows `#S `. -/
  title : Str
  /-- The lines between the title and the labels. -/
  header : List Str
  /-- The labels; each of the others follows two blanks and some more. -/
  first : Str
  others : List (Nat × Str)
  /-- The rows; each number but the first follows one blank. -/
  rows : List (Str × List Str)

/-- The labels of a scan. -/
def Scan.labels (s : Scan) : List Str := s.first :: s.others.map Prod.snd

/-- The line of a row. -/
def rowLine (r : Str × List Str) : Str := r.1 ++ r.2.flatMap (fun n => ' ' :: n)

/-- The values of a row. -/
def rowValues {K : Type} (strtod : Str → K) (r : Str × List Str) : List K := strtod r.1 :: r.2.map strtod

/-- The lines of a scan, the last one blank. -/
def Scan.lines (s : Scan) : List Str :=
  ("#S ".toList ++ s.title) :: s.header ++ [("#L ".toList ++ renderLabels s.first s.others)] ++ s.rows.map rowLine ++ [[]]

/-- The end of a line, LF or CRLF. -/
def endOfLine (cr : Bool) : Str := if cr then ['\r'] else []

/-- The lines of a file as `std::getline` sees them. -/
def fileLines (cr : Bool) (scans : List Scan) : List Str := scans.flatMap (fun s => s.lines.map (fun l => l ++ endOfLine cr))

/-- The text of a file. -/
def fileText (cr : Bool) (scans : List Scan) : Str := (fileLines cr scans).flatMap (fun l => l ++ ['\n'])

/-- A number as it is written: not empty, of digits, signs, points and exponents. -/
def NumberText (n : Str) : Prop := n ≠ [] ∧ ∀ c ∈ n, isNumber c = true

/-- What can be written: one line per line; header lines start with `#` and another character, but not with `#S` or `#L`; the labels have no blank at their
ends and no two blanks together; the rows have two characters or more and as many numbers each. -/
structure Scan.Ok (s : Scan) : Prop where
  title : '\n' ∉ s.title
  header : ∀ l ∈ s.header, '\n' ∉ l ∧ 2 ≤ l.length ∧ l.head? = some '#' ∧ l.take 2 ≠ ['#', 'S'] ∧ l.take 2 ≠ ['#', 'L']
  labels : ∀ l ∈ s.labels, Label l ∧ '\n' ∉ l
  last : s.labels.getLast?.bind List.getLast? ≠ some '\r'
  rows : ∀ r ∈ s.rows, NumberText r.1 ∧ (∀ n ∈ r.2, NumberText n) ∧ 2 ≤ (rowLine r).length
  rect : ∀ r ∈ s.rows, ∀ r' ∈ s.rows, r.2.length = r'.2.length

/-! ## Proofs -/

variable {K : Type}

theorem blocks_append (block rest : List Str) (l : Str) (hl : isScan l = true) (hb : ∀ x ∈ block, isScan x = false)
    (hr : ∀ x, rest.head? = some x → isScan x = true) : blocks (l :: (block ++ rest)) = (l :: block) :: blocks rest := by
  have h1 : (block ++ rest).takeWhile (fun x => !isScan x) = block := by
    induction block with
    | nil =>
      cases rest with
      | nil => rfl
      | cons x _ => simp [hr x rfl]
    | cons b block ih =>
      rw [List.cons_append, List.takeWhile_cons_of_pos (by simp [hb b List.mem_cons_self])]
      rw [ih (fun x hx => hb x (List.mem_cons_of_mem _ hx))]
  have h2 : blocks (block ++ rest) = blocks rest := by
    clear h1
    induction block with
    | nil => rfl
    | cons b block ih =>
      rw [List.cons_append, blocks, if_neg (by simp [hb b List.mem_cons_self])]
      exact ih (fun x hx => hb x (List.mem_cons_of_mem _ hx))
  rw [blocks, if_pos hl, h1, h2]

/-- The lines of a scan after the first. -/
def Scan.body (s : Scan) : List Str :=
  s.header ++ [("#L ".toList ++ renderLabels s.first s.others)] ++ s.rows.map rowLine ++ [[]]

theorem lines_cons (s : Scan) : s.lines = ("#S ".toList ++ s.title) :: s.body := by
  simp [Scan.lines, Scan.body]

theorem take_two {l : Str} (h : 2 ≤ l.length) (e : Str) : (l ++ e).take 2 = l.take 2 := by
  rw [List.take_append_of_le_length h]

theorem number_not_hash {c : Char} (h : isNumber c = true) : c ≠ '#' := by
  rintro rfl
  exact absurd h (by decide)

theorem rowLine_head {r : Str × List Str} (h : NumberText r.1) : ∃ c t, rowLine r = c :: t ∧ isNumber c = true := by
  obtain ⟨hne, hn⟩ := h
  cases hr : r.1 with
  | nil => exact absurd hr hne
  | cons c t => exact ⟨c, t ++ r.2.flatMap (fun n => ' ' :: n), by simp [rowLine, hr], hn c (by rw [hr]; exact List.mem_cons_self)⟩

theorem body_not_scan {s : Scan} (h : s.Ok) (cr : Bool) : ∀ x ∈ s.body.map (fun l => l ++ endOfLine cr), isScan x = false := by
  intro x hx
  obtain ⟨l, hl, rfl⟩ := List.mem_map.1 hx
  unfold isScan
  simp only [Scan.body, List.mem_append, List.mem_singleton, List.mem_map] at hl
  rcases hl with ((hl | rfl) | ⟨r, hr, rfl⟩) | rfl
  · obtain ⟨_, h2, _, h4, _⟩ := h.header l hl
    rw [take_two h2]
    simpa using h4
  · cases cr <;> rfl
  · obtain ⟨c, t, hc, hn⟩ := rowLine_head (h.rows r hr).1
    rw [hc, List.cons_append]
    have := number_not_hash hn
    simp [this]
  · cases cr <;> rfl

theorem fileLines_blocks (cr : Bool) (scans : List Scan) (h : ∀ s ∈ scans, s.Ok) :
    blocks (fileLines cr scans) = scans.map (fun s => s.lines.map (fun l => l ++ endOfLine cr)) := by
  induction scans with
  | nil => rfl
  | cons s scans ih =>
    have hs := h s List.mem_cons_self
    have hh := ih (fun s hs => h s (List.mem_cons_of_mem _ hs))
    unfold fileLines at hh ⊢
    rw [List.flatMap_cons, List.map_cons, ← hh, lines_cons, List.map_cons, List.cons_append]
    apply blocks_append
    · rfl
    · exact body_not_scan hs cr
    · intro x hx
      cases scans with
      | nil => cases hx
      | cons s' _ =>
        rw [List.flatMap_cons, lines_cons, List.map_cons, List.cons_append, List.head?_cons, Option.some.injEq] at hx
        rw [← hx]
        rfl

theorem fileLines_newline (cr : Bool) (scans : List Scan) (h : ∀ s ∈ scans, s.Ok) : ∀ l ∈ fileLines cr scans, '\n' ∉ l := by
  intro l hl
  obtain ⟨s, hs, hl⟩ := List.mem_flatMap.1 hl
  obtain ⟨x, hx, rfl⟩ := List.mem_map.1 hl
  have hs := h s hs
  have hcr : '\n' ∉ endOfLine cr := by cases cr <;> decide
  have key : '\n' ∉ x := by
    rw [lines_cons] at hx
    simp only [Scan.body, List.mem_cons, List.mem_append, List.mem_singleton, List.mem_map, List.not_mem_nil, or_false] at hx
    rcases hx with rfl | ((hx | rfl) | ⟨r, hr, rfl⟩) | rfl
    · intro hn
      rcases List.mem_append.1 hn with hn | hn
      · exact absurd hn (by decide)
      · exact hs.title hn
    · exact (hs.header x hx).1
    · intro hn
      rcases List.mem_append.1 hn with hn | hn
      · exact absurd hn (by decide)
      · rcases List.mem_append.1 hn with hn | hn
        · exact (hs.labels s.first List.mem_cons_self).2 hn
        · obtain ⟨p, hp, hn⟩ := List.mem_flatMap.1 hn
          rcases List.mem_append.1 hn with hn | hn
          · exact absurd (List.eq_of_mem_replicate hn) (by decide)
          · exact (hs.labels p.2 (List.mem_cons_of_mem _ (List.mem_map_of_mem hp))).2 hn
    · have hnum : ∀ n, NumberText n → '\n' ∉ n := fun n hn hm => absurd (hn.2 _ hm) (by decide)
      intro hn
      rcases List.mem_append.1 hn with hn | hn
      · exact hnum _ (hs.rows r hr).1 hn
      · obtain ⟨n, hn1, hn⟩ := List.mem_flatMap.1 hn
        rcases List.mem_cons.1 hn with hn | hn
        · exact absurd hn (by decide)
        · exact hnum n ((hs.rows r hr).2.1 n hn1) hn
    · intro hn
      cases hn
  intro hn
  rcases List.mem_append.1 hn with hn | hn
  · exact key hn
  · exact hcr hn

/-- The file, as it is read. -/
theorem file_lines (cr : Bool) (scans : List Scan) (h : ∀ s ∈ scans, s.Ok) :
    (File.ofText (some (fileText cr scans))).lines = fileLines cr scans := by
  show Ini.lines (fileText cr scans) = _
  exact Ini.lines_join (fileLines_newline cr scans h)

/-- The lines of a scan that are not blank. -/
def Scan.full (s : Scan) : List Str :=
  ("#S ".toList ++ s.title) :: s.header ++ [("#L ".toList ++ renderLabels s.first s.others)] ++ s.rows.map rowLine

theorem lines_full (s : Scan) : s.lines = s.full ++ [[]] := by
  simp [Scan.lines, Scan.full]

theorem full_long {s : Scan} (h : s.Ok) : ∀ l ∈ s.full, 2 ≤ l.length := by
  intro l hl
  simp only [Scan.full, List.cons_append, List.mem_cons, List.mem_append, List.mem_singleton, List.mem_map, List.not_mem_nil, or_false] at hl
  rcases hl with rfl | (hl | rfl) | ⟨r, hr, rfl⟩
  · simp
  · exact (h.header l hl).2.1
  · simp
  · exact (h.rows r hr).2.2

theorem content_full {s : Scan} (h : s.Ok) (cr : Bool) :
    content (s.lines.map (fun l => l ++ endOfLine cr)) = s.full.map (fun l => l ++ endOfLine cr) := by
  rw [lines_full, List.map_append]
  unfold content
  rw [List.takeWhile_append_of_pos]
  · cases cr <;> simp [endOfLine, isShort]
  · intro x hx
    obtain ⟨l, hl, rfl⟩ := List.mem_map.1 hx
    have := full_long h l hl
    simp only [isShort, List.length_append, Bool.not_eq_true', decide_eq_false_iff_not]
    omega

theorem closed_file (f : File) (i : Nat) (s : Scan) (cr : Bool) : Closed f i (s.lines.map (fun l => l ++ endOfLine cr)) := by
  refine Or.inr ⟨[] ++ endOfLine cr, List.mem_map.2 ⟨[], ?_, rfl⟩, ?_⟩
  · rw [lines_full]
    simp
  · cases cr <;> rfl

theorem numbers_row (strtod : Str → K) {r : Str × List Str} (h1 : NumberText r.1) (h2 : ∀ n ∈ r.2, NumberText n) (cr : Bool) :
    numbers strtod (rowLine r ++ endOfLine cr) = rowValues strtod r := by
  have := C39_numbers strtod (([], r.1) :: r.2.map (fun n => ([' '], n))) (endOfLine cr) (by
      intro p hp
      rcases List.mem_cons.1 hp with rfl | hp
      · exact ⟨fun c hc => (by cases hc), h1.1, h1.2⟩
      · obtain ⟨n, hn, rfl⟩ := List.mem_map.1 hp
        exact ⟨fun c hc => (by rw [List.mem_singleton.1 hc]; decide), (h2 n hn).1, (h2 n hn).2⟩) (by
      intro p hp
      obtain ⟨n, _, rfl⟩ := List.mem_map.1 hp
      exact List.cons_ne_nil _ _) (by cases cr <;> decide)
  simp only [List.flatMap_cons, List.nil_append, List.flatMap_map, List.map_cons, List.map_map] at this
  exact this

theorem table_full (strtod : Str → K) {s : Scan} (h : s.Ok) (cr : Bool) :
    table strtod (s.full.map (fun l => l ++ endOfLine cr)) = s.rows.map (rowValues strtod) := by
  unfold table Scan.full
  have hhash : ∀ ls : List Str, (∀ l ∈ ls, l.head? = some '#') →
      (ls.map (fun l => l ++ endOfLine cr)).filter (fun l => l.head? ≠ some '#') = [] := by
    intro ls hls
    rw [List.filter_eq_nil_iff]
    intro x hx
    obtain ⟨l, hl, rfl⟩ := List.mem_map.1 hx
    have := hls l hl
    cases l with
    | nil => cases this
    | cons c t => simpa using this
  rw [List.map_append, List.filter_append, hhash, List.nil_append]
  · have h1 : ((s.rows.map rowLine).map (fun l => l ++ endOfLine cr)).filter (fun l => l.head? ≠ some '#')
        = (s.rows.map rowLine).map (fun l => l ++ endOfLine cr) := by
      rw [List.filter_eq_self]
      intro x hx
      obtain ⟨l, hl, rfl⟩ := List.mem_map.1 hx
      obtain ⟨r, hr, rfl⟩ := List.mem_map.1 hl
      obtain ⟨c, t, hc, hn⟩ := rowLine_head (h.rows r hr).1
      rw [hc]
      have := number_not_hash hn
      simp [this]
    have h2 : ((s.rows.map rowLine).map (fun l => l ++ endOfLine cr)).map (numbers strtod) = s.rows.map (rowValues strtod) := by
      rw [List.map_map, List.map_map]
      refine List.map_congr_left (fun r hr => ?_)
      exact numbers_row strtod (h.rows r hr).1 (h.rows r hr).2.1 cr
    rw [h1, h2, List.filter_eq_self]
    intro x hx
    obtain ⟨r, _, rfl⟩ := List.mem_map.1 hx
    rfl
  · intro l hl
    simp only [List.cons_append, List.mem_cons, List.mem_append, List.not_mem_nil, or_false] at hl
    rcases hl with rfl | hl | rfl
    · rfl
    · exact (h.header l hl).2.2.1
    · rfl

/-! ## The property -/

/-- **C198** (partial) A file that is written is read back: as many scans, and for each one its labels and its numbers, in order, with either end of line. What is missing:
rows of one character, see `C198_single_digit_violated`. -/
theorem C198_roundtrip_partial (strtod : Str → K) (cr : Bool) (scans : List Scan) (h : ∀ s ∈ scans, s.Ok) :
    getNumberOfScans (setFileName (File.ofText (some (fileText cr scans)))) = scans.length ∧
    ∀ (i : Nat) s, scans[i]? = some s →
      getScanLabels (setFileName (File.ofText (some (fileText cr scans)))) i = .ok s.labels ∧
      getScanData strtod (setFileName (File.ofText (some (fileText cr scans)))) i = .ok (s.rows.map (rowValues strtod)) := by
  have hf := file_lines cr scans h
  have hb := fileLines_blocks cr scans h
  generalize File.ofText (some (fileText cr scans)) = f at hf
  refine ⟨?_, fun i s hi => ?_⟩
  · rw [getNumberOfScans, setFileName_scans, ranges_length, ← blocks_length, hf, hb, List.length_map]
  · have hs := h s (List.mem_of_getElem? hi)
    have hblock : (blocks f.lines)[i]? = some (s.lines.map (fun l => l ++ endOfLine cr)) := by
      rw [hf, hb, List.getElem?_map, hi]
      rfl
    have hc := closed_file f i s cr
    constructor
    · refine C63_labels f i _ hblock hc s.first s.others 0 cr (hs.labels _ List.mem_cons_self).1
        (fun p hp => (hs.labels p.2 (List.mem_cons_of_mem _ (List.mem_map_of_mem hp))).1) hs.last
        ((("#S ".toList ++ s.title) :: s.header).map (fun l => l ++ endOfLine cr))
        (s.rows.map (fun r => rowLine r ++ endOfLine cr)) ?_ ?_
      · intro x hx
        obtain ⟨l, hl, rfl⟩ := List.mem_map.1 hx
        rcases List.mem_cons.1 hl with rfl | hl
        · simp
        · rw [take_two (hs.header l hl).2.1]
          exact (hs.header l hl).2.2.2.2
      · rw [content_full hs]
        simp [Scan.full, endOfLine, Function.comp_def]
    · obtain ⟨h1, _⟩ := C94_data_partial strtod f i _ hblock hc
      rw [content_full hs, table_full strtod hs] at h1
      refine h1 ?_
      intro x hx y hy
      obtain ⟨r, hr, rfl⟩ := List.mem_map.1 hx
      obtain ⟨r', hr', rfl⟩ := List.mem_map.1 hy
      simp [rowValues, hs.rect r hr r' hr']

/-- **C198** (violated) A row of one character ends the scan: the rows from there on are lost, without an exception. -/
theorem C198_single_digit_violated (strtod : Str → K) :
    getScanData strtod (setFileName (File.ofText (some (fileText false
      [{ title := "1".toList, header := [], first := "x".toList, others := [], rows := [("10".toList, []), ("5".toList, []), ("20".toList, [])] }])))) 0
        = .ok [[strtod "10".toList]] := by
  rfl

end Specfile

/-! ## In Python -/

namespace Python

variable {K : Type}

/-- PySimpleSpecfile.pyx:40-42: the constructor; `disk` has the texts of the files that can be opened. -/
def newSpecfile (disk : String → Option Str) (name : Text) : Result Specfile.Reader := do
  let n ← stdString (toBytes name)
  return Specfile.setFileName (Specfile.File.ofText (disk n))

/-- PySimpleSpecfile.pyx:47-48, `getNumberOfScans`. -/
def specScans (r : Specfile.Reader) : Result Nat := guarded (.ok (Specfile.getNumberOfScans r))

/-- PySimpleSpecfile.pyx:53-58, `getScanLabels` (Python 3). -/
def specLabels (r : Specfile.Reader) (scanIndex : Int) : Result (List Text) := do
  let l ← guarded (Specfile.getScanLabels r scanIndex)
  return l.map (fun x => toStr (.bytes (String.ofList x)))

/-- PySimpleSpecfile.pyx:60-61, `getScanData`. -/
def specData (strtod : Str → K) (r : Specfile.Reader) (scanIndex : Int) : Result (List (List K)) :=
  guarded (Specfile.getScanData strtod r scanIndex)

/-- **C198** (partial) In Python: the file named as `str` or as `bytes`; the labels come as `str`. A file that cannot be opened gives no exception but an object without
scans. An index that is not that of a scan, a negative one too, raises `ValueError`. -/
theorem C198_python_partial (strtod : Str → K) (disk : String → Option Str) (name : Text) :
    (∃ r, newSpecfile disk name = .value r ∧
      (disk name.get = none → specScans r = .value 0) ∧
      (∀ cr scans, (∀ s ∈ scans, Specfile.Scan.Ok s) → disk name.get = some (Specfile.fileText cr scans) →
        specScans r = .value scans.length ∧
        (∀ (i : Nat) s, scans[i]? = some s → specLabels r i = .value (s.labels.map (fun l => .str (String.ofList l))) ∧
          specData strtod r i = .value (s.rows.map (Specfile.rowValues strtod)))) ∧
      (∀ n, specScans r = .value n → ∀ i : Int, i < 0 ∨ (n : Int) ≤ i →
        specLabels r i = .raises .valueError ∧ specData strtod r i = .raises .valueError)) := by
  refine ⟨Specfile.setFileName (Specfile.File.ofText (disk name.get)), ?_, fun h => ?_, fun cr scans h hd => ?_, fun n hn i hi => ?_⟩
  · unfold newSpecfile
    rw [stdString_toBytes]
    rfl
  · rw [h]
    rfl
  · rw [hd]
    obtain ⟨h1, h2⟩ := Specfile.C198_roundtrip_partial strtod cr scans h
    refine ⟨?_, fun i s hi => ⟨?_, ?_⟩⟩
    · unfold specScans
      rw [h1]
      rfl
    · unfold specLabels
      rw [(h2 i s hi).1]
      rfl
    · unfold specData
      rw [(h2 i s hi).2]
      rfl
  · have hn : Specfile.getNumberOfScans (Specfile.setFileName (Specfile.File.ofText (disk name.get))) = n := by
      unfold specScans at hn
      cases hn
      rfl
    obtain ⟨h1, h2⟩ := Specfile.C39_invalid_index strtod (Specfile.File.ofText (disk name.get)) i (by
      rw [← Specfile.C39_count, hn]
      exact hi)
    unfold specLabels specData
    rw [h1, h2]
    exact ⟨rfl, rfl⟩

end Python

/-! ## Example -/

namespace Specfile

/-- A scan like the first one of the test of the package. -/
def exampleWritten : Scan :=
  { title := ['1', '0', ' ', ' ', 'U', 'n', 'd', 'e', 'f', 'i', 'n', 'e', 'd', ' ', 'c', 'o', 'm', 'm', 'a', 'n', 'd', ' ', '0'], header := [['#', 'N', ' ', '3']], first := ['F', 'i', 'r', 's', 't', ' ', 'l', 'a', 'b', 'e', 'l'],
    others := [(0, ['S', 'e', 'c', 'o', 'n', 'd', ' ', 'l', 'a', 'b', 'e', 'l']), (0, ['T', 'h', 'i', 'r', 'd', ' ', 'l', 'a', 'b', 'e', 'l'])],
    rows := [(['1', '0'], [['1', '0', '0'], ['1', '0', '0', '0']]), (['2', '0'], [['4', '0', '0'], ['8', '.', '5', 'e', '-', '3']])] }

theorem double_blank (u v : Str) : (' ', ' ') ∈ (u ++ ' ' :: ' ' :: v).zip (u ++ ' ' :: ' ' :: v).tail := by
  induction u with
  | nil => simp
  | cons c u ih =>
    cases u with
    | nil => simp
    | cons d u =>
      simp only [List.cons_append, List.tail_cons, List.zip_cons_cons, List.mem_cons] at ih ⊢
      exact Or.inr ih

/-- The hypothesis of `C198_roundtrip_partial` is met. -/
theorem exampleWritten_ok : exampleWritten.Ok where
  title := by decide
  header := by
    intro l hl
    simp only [exampleWritten, List.mem_singleton] at hl
    subst hl
    decide
  labels := by
    have key : ∀ l ∈ exampleWritten.labels, l ≠ [] ∧ (' ', ' ') ∉ l.zip l.tail ∧ l.head? ≠ some ' ' ∧ l.getLast? ≠ some ' ' ∧ '\n' ∉ l := by decide
    intro l hl
    obtain ⟨h1, h2, h3, h4, h5⟩ := key l hl
    exact ⟨⟨h1, fun u v e => h2 (by rw [e]; exact double_blank u v), h3, h4⟩, h5⟩
  last := by decide
  rows := by
    have key : ∀ r ∈ exampleWritten.rows, (r.1 ≠ [] ∧ ∀ c ∈ r.1, isNumber c = true) ∧ (∀ n ∈ r.2, n ≠ [] ∧ ∀ c ∈ n, isNumber c = true) ∧
      2 ≤ (rowLine r).length := by decide
    exact key
  rect := by decide

example : getScanLabels (setFileName (File.ofText (some (fileText true [exampleWritten, exampleWritten])))) 1
    = .ok exampleWritten.labels := by decide +kernel

end Specfile
end Fisx
