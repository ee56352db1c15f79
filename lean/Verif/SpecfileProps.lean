import Verif.Specfile
import Mathlib.Data.List.Basic

/-!
# Properties C39, C40 and C63: the reader of specfiles
-/

set_option linter.unusedSectionVars false

namespace Fisx
namespace Specfile

variable {K : Type}

/-! ## Specification -/

/-- A line starting a scan. -/
def isScan (l : Str) : Bool := l.take 2 == ['#', 'S']

/-- A line ending a scan: at most one character. -/
def isShort (l : Str) : Bool := l.length ≤ 1

/-- The blocks of a file: each one is a line starting with `#S` and the lines up to the next such line. -/
def blocks : List Str → List (List Str)
  | [] => []
  | l :: rest => if isScan l then (l :: rest.takeWhile (fun x => !isScan x)) :: blocks rest else blocks rest

/-- The numbers of a line: the values of the maximal runs of number characters. -/
def numbers (strtod : Str → K) (l : Str) : List K :=
  ((l.splitOnP (fun c => !isNumber c)).filter (fun t => t ≠ [])).map strtod

/-- The rows of some lines: the numbers of the lines not starting with `#` that have numbers. -/
def table (strtod : Str → K) (ls : List Str) : List (List K) :=
  ((ls.filter (fun l => l.head? ≠ some '#')).map (numbers strtod)).filter (fun r => !r.isEmpty)

/-- All the rows have the same number of columns. -/
def Rect (rows : List (List K)) : Prop := ∀ r ∈ rows, ∀ s ∈ rows, r.length = s.length

/-- The lines of a block before the first one of at most one character. -/
def content (block : List Str) : List Str := block.takeWhile (fun l => !isShort l)

/-- The block is followed by the end of the file or contains a line of at most one character. -/
def Closed (f : File) (i : Nat) (block : List Str) : Prop :=
  i + 1 = (blocks f.lines).length ∨ ∃ l ∈ block, isShort l = true

/-! ## The index -/

/-- Where a scan ends. -/
def closeAt (a : Nat) : Nat → List Str → Nat
  | n, [] => n
  | n, l :: t => if isScan l then a else if isShort l then n else closeAt a (n + 1) t

/-- The index of the scans of some lines. -/
def ranges : Nat → List Str → List (Nat × Nat)
  | _, [] => []
  | n, l :: t => if isScan l then (n, closeAt n (n + 1) t) :: ranges (n + 1) t else ranges (n + 1) t

theorem isScan_length {l : Str} (h : isScan l = true) : l.length > 1 := by
  unfold isScan at h
  have h := congrArg List.length (beq_iff_eq.1 h)
  simp at h
  omega

/-- The end of `setFileName`. -/
def finish (s : Index) (n : Nat) : List (Nat × Nat) :=
  if s.fin = none ∧ s.start ≠ none then setBack s.scans n else s.scans

theorem setBack_append (init : List (Nat × Nat)) (a b n : Nat) :
    setBack (init ++ [(a, b)]) n = init ++ [(a, n)] := by
  simp [setBack]

theorem index_spec (ls : List Str) (n : Nat) :
    (∀ fin scans, finish (indexLines n { start := none, fin := fin, scans := scans } ls) (n + ls.length) =
      scans ++ ranges n ls) ∧
    (∀ a init, finish (indexLines n { start := some a, fin := none, scans := init ++ [(a, a)] } ls) (n + ls.length) =
      init ++ (a, closeAt a n ls) :: ranges n ls) := by
  induction ls generalizing n with
  | nil =>
    constructor
    · intro fin scans
      simp [indexLines, finish, ranges]
    · intro a init
      simp [indexLines, finish, ranges, closeAt, setBack_append]
  | cons l t ih =>
    obtain ⟨ih1, ih2⟩ := ih (n + 1)
    have hlen : n + (l :: t).length = n + 1 + t.length := by simp; omega
    rw [hlen]
    by_cases hs : isScan l = true
    · have hl := isScan_length hs
      have ht : l.take 2 = ['#', 'S'] := by simpa [isScan] using hs
      constructor
      · intro fin scans
        rw [indexLines, indexLine, if_pos hl, if_pos ht, ih2, ranges, if_pos hs]
      · intro a init
        rw [indexLines, indexLine, if_pos hl, if_pos ht, ih2, ranges, if_pos hs, closeAt, if_pos hs]
        simp
    · have ht : l.take 2 ≠ ['#', 'S'] := by simpa [isScan] using hs
      by_cases hl : l.length > 1
      · have hsh : isShort l = false := by simp [isShort]; omega
        constructor
        · intro fin scans
          rw [indexLines, indexLine, if_pos hl, if_neg ht, ih1, ranges, if_neg hs]
        · intro a init
          rw [indexLines, indexLine, if_pos hl, if_neg ht, ih2, ranges, if_neg hs, closeAt, if_neg hs, hsh]
          simp
      · have hsh : isShort l = true := by simp [isShort]; omega
        constructor
        · intro fin scans
          rw [indexLines, indexLine, if_neg hl]
          dsimp only
          rw [ih1, ranges, if_neg hs]
        · intro a init
          rw [indexLines, indexLine, if_neg hl]
          dsimp only
          rw [ih1, ranges, if_neg hs, closeAt, if_neg hs, if_pos hsh, setBack_append]
          simp

theorem setFileName_scans (f : File) : (setFileName f).scans = ranges 0 f.lines := by
  have := (index_spec f.lines 0).1 none []
  rw [Nat.zero_add, List.nil_append] at this
  exact this

theorem ranges_length (ls : List Str) (n : Nat) : (ranges n ls).length = (ls.filter isScan).length := by
  induction ls generalizing n with
  | nil => rfl
  | cons l t ih =>
    rw [ranges]
    by_cases h : isScan l = true
    · rw [if_pos h, List.filter_cons_of_pos h]; simp [ih]
    · rw [if_neg h, List.filter_cons_of_neg h, ih]

theorem blocks_length (ls : List Str) : (blocks ls).length = (ls.filter isScan).length := by
  induction ls with
  | nil => rfl
  | cons l t ih =>
    rw [blocks]
    by_cases h : isScan l = true
    · rw [if_pos h, List.filter_cons_of_pos h]; simp [ih]
    · rw [if_neg h, List.filter_cons_of_neg h, ih]

/-- Whether another scan follows. -/
theorem blocks_nil_iff (ls : List Str) : blocks ls = [] ↔ ∀ l ∈ ls, isScan l = false := by
  rw [← List.length_eq_zero_iff, blocks_length, List.length_eq_zero_iff, List.filter_eq_nil_iff]
  simp

theorem closeAt_spec (a : Nat) (n : Nat) (t : List Str) :
    (closeAt a n t = n + (content (t.takeWhile (fun x => !isScan x))).length ∧
      (blocks t = [] ∨ ∃ l ∈ t.takeWhile (fun x => !isScan x), isShort l = true)) ∨
    (closeAt a n t = a ∧ blocks t ≠ [] ∧ ¬ ∃ l ∈ t.takeWhile (fun x => !isScan x), isShort l = true) := by
  induction t generalizing n with
  | nil => left; simp [closeAt, content, blocks]
  | cons l t ih =>
    rw [closeAt]
    by_cases hs : isScan l = true
    · right
      rw [if_pos hs, blocks, if_pos hs, List.takeWhile_cons_of_neg (by simp [hs])]
      simp
    · rw [if_neg hs, blocks, if_neg hs, List.takeWhile_cons_of_pos (by simpa using hs)]
      by_cases hl : isShort l = true
      · left
        rw [if_pos hl, content, List.takeWhile_cons_of_neg (by simp [hl])]
        exact ⟨rfl, Or.inr ⟨l, List.mem_cons_self .., hl⟩⟩
      · rw [if_neg hl]
        rcases ih (n + 1) with ⟨h1, h2⟩ | ⟨h1, h2, h3⟩
        · left
          rw [content, List.takeWhile_cons_of_pos (by simpa using hl), h1]
          refine ⟨by simp [content]; omega, ?_⟩
          rcases h2 with h2 | ⟨x, hx, hx2⟩
          · exact Or.inl h2
          · exact Or.inr ⟨x, List.mem_cons_of_mem _ hx, hx2⟩
        · right
          refine ⟨h1, h2, ?_⟩
          rintro ⟨x, hx, hx2⟩
          rcases List.mem_cons.1 hx with rfl | hx
          · exact hl hx2
          · exact h3 ⟨x, hx, hx2⟩

theorem content_prefix (b : List Str) (t : List Str) (p : Str → Bool) (hb : b = t.takeWhile p) :
    t.take (content b).length = content b := by
  subst hb
  have h1 : content (t.takeWhile p) <+: t :=
    (List.takeWhile_prefix _).trans (List.takeWhile_prefix _)
  exact (List.prefix_iff_eq_take.1 h1).symm

/-- What follows the content of a block is the end of the file or a line which is not a label line. -/
theorem content_next {t : List Str} {p : Str → Bool} :
    ∃ rest, t = content (t.takeWhile p) ++ rest ∧
      ∀ l, rest.head? = some l → isShort l = true ∨ p l = false := by
  refine ⟨t.drop (content (t.takeWhile p)).length, ?_, ?_⟩
  · conv_lhs => rw [← List.take_append_drop (content (t.takeWhile p)).length t, content_prefix _ t p rfl]
  · induction t with
    | nil => simp
    | cons a t ih =>
      intro l hl
      by_cases hp : p a = true
      · by_cases hs : isShort a = true
        · rw [List.takeWhile_cons_of_pos hp, content, List.takeWhile_cons_of_neg (by simp [hs])] at hl
          simp only [List.length_nil, List.drop_zero, List.head?_cons, Option.some_inj] at hl
          exact Or.inl (hl ▸ hs)
        · rw [List.takeWhile_cons_of_pos hp, content, List.takeWhile_cons_of_pos (by simpa using hs)] at hl
          simp only [List.length_cons, List.drop_succ_cons] at hl
          exact ih l hl
      · rw [List.takeWhile_cons_of_neg hp] at hl
        simp only [content, List.takeWhile_nil, List.length_nil, List.drop_zero, List.head?_cons,
          Option.some_inj] at hl
        exact Or.inr (hl ▸ by simpa using hp)

/-- The range of a scan and its block: the lines read, and those which follow. -/
theorem ranges_block (ls : List Str) (n : Nat) (i : Nat) (block : List Str) (h : (blocks ls)[i]? = some block) :
    ∃ a b rest, (ranges n ls)[i]? = some (a, b) ∧ n ≤ a ∧
      (((i + 1 = (blocks ls).length ∨ ∃ l ∈ block, isShort l = true) ∧ b = a + (content block).length ∧
          ls.drop (a - n) = content block ++ rest ∧
          (∀ l, rest.head? = some l → isShort l = true ∨ isScan l = true)) ∨
       (¬ (i + 1 = (blocks ls).length ∨ ∃ l ∈ block, isShort l = true) ∧ b = a ∧
          ∃ l, ls.drop (a - n) = l :: rest ∧ isScan l = true)) := by
  induction ls generalizing n i with
  | nil => simp [blocks] at h
  | cons l t ih =>
    rw [blocks] at h
    by_cases hs : isScan l = true
    · rw [if_pos hs] at h
      have hb : blocks (l :: t) = (l :: t.takeWhile (fun x => !isScan x)) :: blocks t := by rw [blocks, if_pos hs]
      have hr : ranges n (l :: t) = (n, closeAt n (n + 1) t) :: ranges (n + 1) t := by rw [ranges, if_pos hs]
      cases i with
      | zero =>
        simp only [List.getElem?_cons_zero, Option.some_inj] at h
        have hnl : isShort l = false := by have := isScan_length hs; simp [isShort]; omega
        have hc : content block = l :: content (t.takeWhile (fun x => !isScan x)) := by
          rw [← h, content, List.takeWhile_cons_of_pos (by simp [hnl])]; rfl
        have hlast : (0 + 1 = (blocks (l :: t)).length ∨ ∃ x ∈ block, isShort x = true) ↔
            (blocks t = [] ∨ ∃ x ∈ t.takeWhile (fun x => !isScan x), isShort x = true) := by
          rw [hb, ← h]
          simp [hnl]
        rcases closeAt_spec n (n + 1) t with ⟨h1, h2⟩ | ⟨h1, h2, h3⟩
        · obtain ⟨rest, e1, e2⟩ := content_next (t := t) (p := fun x => !isScan x)
          refine ⟨n, closeAt n (n + 1) t, rest, by rw [hr]; rfl, le_refl _, Or.inl ⟨hlast.2 h2, ?_, ?_, ?_⟩⟩
          · rw [h1, hc]; simp; omega
          · rw [hc, Nat.sub_self, List.drop_zero, List.cons_append, ← e1]
          · intro x hx
            rcases e2 x hx with h | h
            · exact Or.inl h
            · exact Or.inr (by simpa using h)
        · refine ⟨n, closeAt n (n + 1) t, t, by rw [hr]; rfl, le_refl _, Or.inr ⟨?_, h1, l, by simp, hs⟩⟩
          rw [hlast]
          rintro (h | h)
          · exact h2 h
          · exact h3 h
      | succ i =>
        rw [List.getElem?_cons_succ] at h
        obtain ⟨a, b, rest, h1, h2, h3⟩ := ih (n + 1) i h
        refine ⟨a, b, rest, by rw [hr]; exact h1, by omega, ?_⟩
        have hd : (l :: t).drop (a - n) = t.drop (a - (n + 1)) := by
          rw [show a - n = (a - (n + 1)) + 1 by omega, List.drop_succ_cons]
        rw [hd, hb]
        simpa using h3
    · rw [if_neg hs] at h
      have hb : blocks (l :: t) = blocks t := by rw [blocks, if_neg hs]
      have hr : ranges n (l :: t) = ranges (n + 1) t := by rw [ranges, if_neg hs]
      obtain ⟨a, b, rest, h1, h2, h3⟩ := ih (n + 1) i h
      refine ⟨a, b, rest, by rw [hr]; exact h1, by omega, ?_⟩
      have hd : (l :: t).drop (a - n) = t.drop (a - (n + 1)) := by
        rw [show a - n = (a - (n + 1)) + 1 by omega, List.drop_succ_cons]
      rw [hd, hb]
      exact h3

/-! ## Numbers -/

theorem tokens_spec (cur l : Str) :
    tokens cur l = ((l.splitOnP (fun c => !isNumber c)).modifyHead (cur ++ ·)).filter (fun t => t ≠ []) := by
  induction l generalizing cur with
  | nil =>
    rw [tokens, List.splitOnP_nil]
    by_cases h : cur = [] <;> simp [h]
  | cons c t ih =>
    rw [tokens, List.splitOnP_cons_eq_if_modifyHead]
    by_cases hc : isNumber c = true
    · rw [if_pos hc, if_neg (by simp [hc]), ih, List.modifyHead_modifyHead]
      congr 2
      funext x
      simp
    · have hc' : (!isNumber c) = true := by simpa using hc
      rw [if_neg hc, hc', if_pos rfl, List.modifyHead_cons, List.append_nil, ih]
      have hm : ∀ L : List Str, List.modifyHead (fun x => [] ++ x) L = L := by
        intro L; cases L <;> rfl
      rw [hm]
      by_cases h : cur = []
      · rw [if_pos h, List.filter_cons_of_neg (by simpa using h)]
      · rw [if_neg h, List.filter_cons_of_pos (by simpa using h)]

theorem splitOnP_dropCR (l : Str) :
    ((dropCR l).splitOnP (fun c => !isNumber c)).filter (fun t => t ≠ []) =
      (l.splitOnP (fun c => !isNumber c)).filter (fun t => t ≠ []) := by
  have key : ∀ (u : Str) cur, tokens cur (u ++ ['\r']) = tokens cur u := by
    intro u
    induction u with
    | nil =>
      intro cur
      have hcr : isNumber '\r' = false := by decide
      simp only [List.nil_append, tokens, hcr, Bool.false_eq_true, if_false, if_true]
    | cons c t ih =>
      intro cur
      rw [List.cons_append, tokens, tokens, ih, ih]
  have hid : ∀ u : Str, tokens [] u = (u.splitOnP (fun c => !isNumber c)).filter (fun t => t ≠ []) := by
    intro u
    rw [tokens_spec]
    congr 1
    cases List.splitOnP (fun c => !isNumber c) u <;> rfl
  unfold dropCR
  split
  · next h =>
    rw [← hid, ← hid]
    obtain ⟨u, rfl⟩ : ∃ u, l = u ++ ['\r'] := by
      obtain ⟨hne, he⟩ := List.getLast?_eq_some_iff.1 h
      exact ⟨hne, he⟩
    rw [List.dropLast_concat, key]
  · rfl

theorem tokens_numbers (strtod : Str → K) (l : Str) : (tokens [] (dropCR l)).map strtod = numbers strtod l := by
  unfold numbers
  rw [tokens_spec, ← splitOnP_dropCR]
  congr 2
  cases List.splitOnP (fun c => !isNumber c) (dropCR l) <;> rfl

theorem dropCR_head {l : Str} (h : isShort l = false) : (dropCR l).head? = l.head? := by
  simp only [isShort, decide_eq_false_iff_not, not_le] at h
  unfold dropCR
  split
  · match l, h with
    | a :: b :: t, _ => simp [List.dropLast]
  · rfl

/-! ## Data -/

theorem table_cons (strtod : Str → K) (l : Str) (ls : List Str) :
    table strtod (l :: ls) = if l.head? = some '#' then table strtod ls
      else if numbers strtod l = [] then table strtod ls else numbers strtod l :: table strtod ls := by
  unfold table
  by_cases h : l.head? = some '#'
  · rw [List.filter_cons_of_neg (by simpa using h), if_pos h]
  · rw [List.filter_cons_of_pos (by simpa using h), if_neg h, List.map_cons]
    by_cases hn : numbers strtod l = []
    · rw [if_pos hn, List.filter_cons_of_neg (by simp [hn])]
    · rw [if_neg hn, List.filter_cons_of_pos (by simpa using hn)]

theorem dataLoop_spec (strtod : Str → K) (term : Bool) (ls more : List Str) (hs : ∀ l ∈ ls, isShort l = false)
    (line : Str) (res : List (List K)) (hres : Rect res) :
    (Rect (res ++ table strtod ls) →
      dataLoop strtod term ls.length line (ls ++ more) res = .ok (res ++ table strtod ls)) ∧
    (¬ Rect (res ++ table strtod ls) →
      dataLoop strtod term ls.length line (ls ++ more) res = .throw .runtimeError) := by
  induction ls generalizing line res with
  | nil =>
    refine ⟨fun _ => by simp [dataLoop, table], fun h => ?_⟩
    simp [table] at h
    exact absurd hres h
  | cons l t ih =>
    have iht := fun (line : Str) (res : List (List K)) => ih (fun x hx => hs x (List.mem_cons_of_mem _ hx)) line res
    rw [List.length_cons, List.cons_append, dataLoop, getline]
    dsimp only
    rw [tokens_numbers, dropCR_head (hs l (List.mem_cons_self ..)), table_cons]
    by_cases h1 : l.head? = some '#'
    · rw [if_pos h1, if_pos h1]; exact iht _ _ hres
    · rw [if_neg h1, if_neg h1]
      by_cases h2 : numbers strtod l = []
      · rw [if_pos h2, if_neg (by simp [h2])]; exact iht _ _ hres
      · rw [if_neg h2, if_pos (List.length_pos_iff.2 h2)]
        cases res with
        | nil =>
          dsimp only
          have := iht (dropCR l) [numbers strtod l] (by intro r hr s hs; simp at hr hs; rw [hr, hs])
          simpa using this
        | cons first rs =>
          dsimp only
          by_cases h3 : first.length ≠ (numbers strtod l).length
          · rw [if_pos h3]
            refine ⟨fun h => absurd (h first (by simp) (numbers strtod l) (by simp)) h3, fun _ => rfl⟩
          · rw [if_neg h3]
            push Not at h3
            have hr : Rect (first :: rs ++ [numbers strtod l]) := by
              have hw : ∀ r ∈ first :: rs ++ [numbers strtod l], r.length = first.length := by
                intro r hr
                rcases List.mem_append.1 hr with hr | hr
                · exact hres r hr first (List.mem_cons_self ..)
                · rw [List.mem_singleton] at hr; rw [hr, h3]
              intro r hr s hs
              rw [hw r hr, hw s hs]
            have := iht (dropCR l) _ hr
            simpa using this

theorem content_long (b : List Str) : ∀ l ∈ content b, isShort l = false := by
  intro l hl
  unfold content at hl
  have := List.all_eq_true.1 List.all_takeWhile l hl
  simpa using this

theorem vget_eq {α} {v : List α} {i : Nat} {a : α} (h : v[i]? = some a) : vget v i = .ok a := by
  simp [vget, h]

theorem index_ok {f : File} {i : Nat} {block : List Str} (h : (blocks f.lines)[i]? = some block) :
    ¬ ((i : Int) ≥ (getNumberOfScans (setFileName f) : Int) ∨ (i : Int) < 0) := by
  have h1 : i < (blocks f.lines).length := (List.getElem?_eq_some_iff.1 h).1
  rw [getNumberOfScans, setFileName_scans, ranges_length, ← blocks_length]
  omega

/-! ## C39 -/

/-- C39: the number of scans is the number of lines starting with `#S`, for every file. -/
theorem C39_count (f : File) : getNumberOfScans (setFileName f) = (f.lines.filter isScan).length := by
  rw [getNumberOfScans, setFileName_scans, ranges_length]

/-- C39: every other scan index is rejected. -/
theorem C39_invalid_index (strtod : Str → K) (f : File) (i : Int)
    (h : i < 0 ∨ ((f.lines.filter isScan).length : Int) ≤ i) :
    getScanData strtod (setFileName f) i = .throw .invalidArgument ∧
    getScanLabels (setFileName f) i = .throw .invalidArgument := by
  have : i ≥ (getNumberOfScans (setFileName f) : Int) ∨ i < 0 := by
    rw [C39_count]; omega
  unfold getScanData getScanLabels
  rw [if_pos this, if_pos this]
  exact ⟨rfl, rfl⟩

/-- C94, the part that holds: if the scan is the last one or is followed by a line of at most one character before the
next `#S` line, its data are the rows of its lines before that one; `runtime_error` iff they have not all the same
number of columns. -/
theorem C94_data_partial (strtod : Str → K) (f : File) (i : Nat) (block : List Str)
    (h : (blocks f.lines)[i]? = some block) (hc : Closed f i block) :
    (Rect (table strtod (content block)) →
      getScanData strtod (setFileName f) i = .ok (table strtod (content block))) ∧
    (¬ Rect (table strtod (content block)) →
      getScanData strtod (setFileName f) i = .throw .runtimeError) := by
  obtain ⟨a, b, rest, h1, -, h3⟩ := ranges_block f.lines 0 i block h
  rcases h3 with ⟨-, hb, hd, -⟩ | ⟨hn, -⟩
  · unfold getScanData
    rw [if_neg (index_ok h), Int.toNat_natCast, setFileName_scans, vget_eq h1, Outcome.ok_bind]
    dsimp only
    have hfile : (setFileName f).file = f := rfl
    rw [Nat.sub_zero] at hd
    rw [hfile, hd, hb, Nat.add_sub_cancel_left]
    have := dataLoop_spec strtod f.terminated (content block) rest (content_long block) [] [] (by simp [Rect])
    simpa using this
  · exact absurd hc hn

/-- C94 is false, for every file: a scan followed by another one without a line of at most one character in between
has no data and no labels. -/
theorem C94_unseparated_violated (strtod : Str → K) (f : File) (i : Nat) (block : List Str)
    (h : (blocks f.lines)[i]? = some block) (hc : ¬ Closed f i block) :
    getScanData strtod (setFileName f) i = .ok [] ∧
    getScanLabels (setFileName f) i = .throw .runtimeError := by
  obtain ⟨a, b, rest, h1, -, h3⟩ := ranges_block f.lines 0 i block h
  rcases h3 with ⟨hn, -⟩ | ⟨-, hb, l, hd, hl⟩
  · exact absurd hn hc
  · subst hb
    constructor
    · unfold getScanData
      rw [if_neg (index_ok h), Int.toNat_natCast, setFileName_scans, vget_eq h1, Outcome.ok_bind]
      dsimp only
      rw [Nat.sub_self, dataLoop]
    · unfold getScanLabels
      rw [if_neg (index_ok h), Int.toNat_natCast, setFileName_scans, vget_eq h1, Outcome.ok_bind]
      have hfile : (setFileName f).file = f := rfl
      dsimp only
      rw [Nat.sub_zero] at hd
      have ht : l.take 2 = ['#', 'S'] := by simpa [isScan] using hl
      have hloop : labelLoop f.terminated (1 + b - b) [] (l :: rest) = l := by
        rw [show 1 + b - b = 0 + 1 by omega, labelLoop, if_neg (by simp)]
        rfl
      rw [if_neg (by omega), hfile, hd, hloop, if_neg (by have := isScan_length hl; omega),
        if_pos (by rw [ht]; decide)]

/-- Two scans of two rows, separated by a blank line or not, with a final note. -/
def exampleFile (sep : String) : File :=
  File.ofText (some ("#F x\n\n#S 1 a\n#L  x  y z\n1 2\n3  -4.5e1\n".toList ++ sep.toList ++
    "#S 2 b\n#N 1\n7\r\n8.5\r\n".toList))

/-- The text itself as a number. -/
def asText : Str → String := String.ofList

example : getScanData asText (setFileName (exampleFile "\n")) 0 = .ok [["1", "2"], ["3", "-4.5e1"]] := by
  decide +kernel
example : getScanData asText (setFileName (exampleFile "\n")) 1 = .ok [["7"], ["8.5"]] := by decide +kernel
example : Closed (exampleFile "\n") 0
    ["#S 1 a".toList, "#L  x  y z".toList, "1 2".toList, "3  -4.5e1".toList, []] :=
  Or.inr ⟨[], by simp, rfl⟩

/-- C94, the witness: without a blank line the rows of the first scan are lost. -/
theorem C94_witness_violated :
    getNumberOfScans (setFileName (exampleFile "")) = 2 ∧
    (blocks (exampleFile "").lines)[0]? =
      some ["#S 1 a".toList, "#L  x  y z".toList, "1 2".toList, "3  -4.5e1".toList] ∧
    table asText ["#S 1 a".toList, "#L  x  y z".toList, "1 2".toList, "3  -4.5e1".toList] =
      [["1", "2"], ["3", "-4.5e1"]] ∧
    getScanData asText (setFileName (exampleFile "")) 0 = .ok [] := by
  refine ⟨?_, ?_, ?_, ?_⟩ <;> decide +kernel

/-- C94, another loss: a line with a single digit ends the scan. -/
theorem C94_single_digit_violated :
    getScanData asText (setFileName (File.ofText (some "#S 1\n10\n5\n20\n".toList))) 0 = .ok [["10"]] := by
  decide +kernel

/-- C39: numbers written with number characters and separated by other characters are read one by one: a line made of
separators and numbers gives the values of the numbers. -/
theorem C39_numbers (strtod : Str → K) (parts : List (Str × Str)) (trail : Str)
    (h : ∀ p ∈ parts, (∀ c ∈ p.1, isNumber c = false) ∧ p.2 ≠ [] ∧ ∀ c ∈ p.2, isNumber c = true)
    (hsep : ∀ p ∈ parts.tail, p.1 ≠ []) (ht : ∀ c ∈ trail, isNumber c = false) :
    numbers strtod (parts.flatMap (fun p => p.1 ++ p.2) ++ trail) = parts.map (fun p => strtod p.2) := by
  have hid : ∀ u : Str, numbers strtod u = (tokens [] u).map strtod := by
    intro u
    unfold numbers
    rw [tokens_spec]
    congr 2
    cases List.splitOnP (fun c => !isNumber c) u <;> rfl
  rw [hid]
  have hskip : ∀ (u rest : Str), (∀ c ∈ u, isNumber c = false) → tokens [] (u ++ rest) = tokens [] rest := by
    intro u rest hu
    induction u with
    | nil => rfl
    | cons c t ih =>
      rw [List.cons_append, tokens, if_neg (by simp [hu c (List.mem_cons_self ..)]), if_pos rfl,
        ih (fun x hx => hu x (List.mem_cons_of_mem _ hx))]
  have htake : ∀ (u rest cur : Str), (∀ c ∈ u, isNumber c = true) →
      tokens cur (u ++ rest) = tokens (cur ++ u) rest := by
    intro u rest cur hu
    induction u generalizing cur with
    | nil => simp
    | cons c t ih =>
      rw [List.cons_append, tokens, if_pos (hu c (List.mem_cons_self ..)),
        ih _ (fun x hx => hu x (List.mem_cons_of_mem _ hx))]
      simp
  have hflush : ∀ (cur rest : Str), cur ≠ [] → (∀ c, rest.head? = some c → isNumber c = false) →
      tokens cur rest = cur :: tokens [] rest := by
    intro cur rest hcur hr
    cases rest with
    | nil => simp [tokens, hcur]
    | cons c t =>
      have := hr c rfl
      rw [tokens, tokens, if_neg (by simp [this]), if_neg hcur, if_neg (by simp [this]), if_pos rfl]
  suffices hmain : tokens [] (parts.flatMap (fun p => p.1 ++ p.2) ++ trail) = parts.map (fun p => p.2) by
    rw [hmain, List.map_map]; rfl
  induction parts with
  | nil =>
    have := hskip trail [] ht
    simpa [tokens] using this
  | cons p t ih =>
    obtain ⟨h1, h2, h3⟩ := h p (List.mem_cons_self ..)
    rw [List.flatMap_cons, List.append_assoc, List.append_assoc, hskip _ _ h1, htake _ _ _ h3, List.nil_append,
      hflush _ _ h2, ih (fun x hx => h x (List.mem_cons_of_mem _ hx)) (fun x hx => hsep x (List.mem_of_mem_tail hx)),
      List.map_cons]
    intro c hc
    cases t with
    | nil => exact ht c (List.mem_of_mem_head? (by simpa using hc))
    | cons q t =>
      have hq : q.1 ≠ [] := hsep q (by simp)
      obtain ⟨d, u, hu⟩ := List.exists_cons_of_ne_nil hq
      rw [List.flatMap_cons, hu] at hc
      simp at hc
      subst hc
      exact (h q (by simp)).1 d (by rw [hu]; exact List.mem_cons_self ..)

example : numbers asText " 1.5\t-2e3, 4 ".toList = ["1.5", "-2e3", "4"] := by decide +kernel

/-! ## C40 -/

theorem dataLoop_rect (strtod : Str → K) (term : Bool) (n : Nat) (line : Str) (stream : List Str)
    (res rows : List (List K)) (hres : Rect res ∧ ∀ r ∈ res, r ≠ [])
    (h : dataLoop strtod term n line stream res = .ok rows) : Rect rows ∧ ∀ r ∈ rows, r ≠ [] := by
  induction n generalizing line stream res with
  | zero =>
    simp only [dataLoop, Outcome.ok.injEq] at h
    exact h ▸ hres
  | succ n ih =>
    rw [dataLoop] at h
    dsimp only at h
    split at h
    · exact ih _ _ _ hres h
    · split at h
      · next hpos =>
        have hne := List.length_pos_iff.1 hpos
        cases res with
        | nil =>
          refine ih _ _ _ ⟨?_, ?_⟩ h
          · intro r hr s hs
            rw [List.mem_singleton] at hr hs
            rw [hr, hs]
          · intro r hr
            rw [List.mem_singleton] at hr
            rw [hr]; exact hne
        | cons first rs =>
          dsimp only at h
          split at h
          · cases h
          · next h3 =>
            push Not at h3
            refine ih _ _ _ ⟨?_, ?_⟩ h
            · have hw : ∀ r ∈ first :: rs ++ [(tokens [] (dropCR (getline term line stream).1)).map strtod],
                  r.length = first.length := by
                intro r hr
                rcases List.mem_append.1 hr with hr | hr
                · exact hres.1 r hr first (List.mem_cons_self ..)
                · rw [List.mem_singleton] at hr; rw [hr, h3]
              intro r hr s hs
              rw [hw r hr, hw s hs]
            · intro r hr
              rcases List.mem_append.1 hr with hr | hr
              · exact hres.2 r hr
              · rw [List.mem_singleton] at hr; rw [hr]; exact hne
      · exact ih _ _ _ hres h

/-- C40: whatever the state of the reader, the rows returned all have the same number of columns, which is not zero. -/
theorem C40_rectangular (strtod : Str → K) (r : Reader) (i : Int) (rows : List (List K))
    (h : getScanData strtod r i = .ok rows) : Rect rows ∧ ∀ row ∈ rows, row ≠ [] := by
  unfold getScanData at h
  split at h
  · cases h
  · obtain ⟨p, hp, h⟩ := Outcome.bind_eq_ok.1 h
    exact dataLoop_rect strtod _ _ _ _ _ _ ⟨by simp [Rect], by simp⟩ h

/-- C40: on a file, the query returns rows or throws `invalid_argument` or `runtime_error`; it never steps out of a
vector. -/
theorem C40_outcomes (strtod : Str → K) (f : File) (i : Int) :
    (∃ rows, getScanData strtod (setFileName f) i = .ok rows) ∨
    getScanData strtod (setFileName f) i = .throw .invalidArgument ∨
    getScanData strtod (setFileName f) i = .throw .runtimeError := by
  by_cases hi : i ≥ (getNumberOfScans (setFileName f) : Int) ∨ i < 0
  · right; left
    unfold getScanData
    rw [if_pos hi]
  · have hlt : i.toNat < (blocks f.lines).length := by
      rw [getNumberOfScans, setFileName_scans, ranges_length, ← blocks_length] at hi
      omega
    have hb := List.getElem?_eq_getElem hlt
    have hcast : ((i.toNat : Nat) : Int) = i := by omega
    by_cases hc : Closed f i.toNat ((blocks f.lines)[i.toNat])
    · obtain ⟨h1, h2⟩ := C94_data_partial strtod f i.toNat _ hb hc
      rw [hcast] at h1 h2
      by_cases hr : Rect (table strtod (content (blocks f.lines)[i.toNat]))
      · exact Or.inl ⟨_, h1 hr⟩
      · exact Or.inr (Or.inr (h2 hr))
    · have := (C94_unseparated_violated strtod f i.toNat _ hb hc).1
      rw [hcast] at this
      exact Or.inl ⟨_, this⟩

example : getScanData asText (setFileName (File.ofText (some "#S 1\n1 2\n3 4 5\n".toList))) 0 =
    .throw .runtimeError := by decide +kernel

/-! ## C63: labels -/

/-- A label: not empty, no double blank inside, no blank at the ends. -/
structure Label (l : Str) : Prop where
  ne : l ≠ []
  inner : ∀ u v, l ≠ u ++ ' ' :: ' ' :: v
  first : l.head? ≠ some ' '
  last : l.getLast? ≠ some ' '

/-- Labels, each one preceded by blanks. -/
def renderLabels (first : Str) (others : List (Nat × Str)) : Str :=
  first ++ others.flatMap (fun p => List.replicate (p.1 + 2) ' ' ++ p.2)

theorem split_label {l : Str} (h : ∀ u v, l ≠ u ++ ' ' :: ' ' :: v) (hl : l.getLast? ≠ some ' ') (cur rest : Str)
    (sk : Bool) (hsk : sk = true → l.head? ≠ some ' ') (hne : l ≠ []) :
    splitLabels sk cur (l ++ rest) = splitLabels false (cur ++ l) rest := by
  induction l generalizing cur sk with
  | nil => exact absurd rfl hne
  | cons c t ih =>
    rw [List.cons_append, splitLabels]
    have h1 : ¬ (sk = true ∧ c = ' ') := by
      rintro ⟨a, b⟩
      exact hsk a (by simp [b])
    rw [if_neg h1]
    cases t with
    | nil =>
      have hc : c ≠ ' ' := by simpa using hl
      rw [if_neg (by simp [hc])]
      simp
    | cons d t =>
      have h2 : ¬ ((d :: t ++ rest).length ≥ 2 ∧ c = ' ' ∧ (d :: t ++ rest).head? = some ' ') := by
        rintro ⟨-, a, b⟩
        simp at b
        exact h [] t (by simp [a, b])
      rw [if_neg h2, ih ?_ ?_ _ false (by simp) (by simp)]
      · simp
      · intro u v e
        exact h (c :: u) v (by simp [e])
      · simpa using hl

theorem split_blanks {l : Str} (n : Nat) :
    splitLabels true [] (List.replicate n ' ' ++ l) = splitLabels true [] l := by
  induction n with
  | zero => rfl
  | succ n ih =>
    rw [List.replicate_succ, List.cons_append, splitLabels, if_pos ⟨rfl, rfl⟩, ih]

theorem split_render (first : Str) (others : List (Nat × Str)) (hf : first.getLast? ≠ some ' ') (hne : first ≠ [])
    (hin : ∀ u v, first ≠ u ++ ' ' :: ' ' :: v)
    (sk : Bool) (hsk : sk = true → first.head? ≠ some ' ') (ho : ∀ p ∈ others, Label p.2) :
    splitLabels sk [] (renderLabels first others) = first :: others.map Prod.snd := by
  induction others generalizing first sk with
  | nil =>
    rw [renderLabels, split_label hin hf _ _ _ hsk hne]
    simp [splitLabels, hne]
  | cons p t ih =>
    obtain ⟨hp, hpt⟩ : Label p.2 ∧ ∀ q ∈ t, Label q.2 :=
      ⟨ho p (List.mem_cons_self ..), fun q hq => ho q (List.mem_cons_of_mem _ hq)⟩
    rw [renderLabels, split_label hin hf _ _ _ hsk hne, List.nil_append, List.flatMap_cons,
      List.append_assoc, List.replicate_succ, List.cons_append, splitLabels]
    have hlen : 0 < p.2.length := List.length_pos_iff.2 hp.ne
    rw [if_neg (by simp), if_pos ⟨by simp; omega, rfl, by rw [List.replicate_succ]; rfl⟩, split_blanks]
    have := ih p.2 hp.last hp.ne hp.inner true (fun _ => hp.first) hpt
    rw [renderLabels] at this
    rw [this]
    rfl

theorem labelLoop_spec (term : Bool) (pre : List Str) (l : Str) (rest : List Str)
    (hl : l.take 2 = ['#', 'L']) (hpre : ∀ x ∈ pre, x.take 2 ≠ ['#', 'L']) (line : Str)
    (h0 : line.take 2 ≠ ['#', 'L']) (n : Nat) (hn : pre.length + 1 ≤ n) :
    labelLoop term n line (pre ++ l :: rest) = l := by
  have hlen : l.length > 1 := by
    have := congrArg List.length hl
    simp at this
    omega
  induction pre generalizing line n with
  | nil =>
    obtain ⟨m, rfl⟩ : ∃ m, n = m + 1 := ⟨n - 1, by simp at hn; omega⟩
    rw [labelLoop, if_neg (fun h => h0 h.2), List.nil_append, getline]
    dsimp only
    cases m with
    | zero => rfl
    | succ m => rw [labelLoop, if_pos ⟨hlen, hl⟩]
  | cons x t ih =>
    obtain ⟨m, rfl⟩ : ∃ m, n = m + 1 := ⟨n - 1, by simp at hn; omega⟩
    rw [labelLoop, if_neg (fun h => h0 h.2), List.cons_append, getline]
    dsimp only
    exact ih (fun y hy => hpre y (List.mem_cons_of_mem _ hy)) x (hpre x (List.mem_cons_self ..)) m
      (by simp at hn; omega)

theorem labelLoop_none (term : Bool) (n : Nat) (ls : List Str) (h : ∀ x ∈ ls.take n, x.take 2 ≠ ['#', 'L'])
    (line : Str) (h0 : line.take 2 ≠ ['#', 'L']) : (labelLoop term n line ls).take 2 ≠ ['#', 'L'] := by
  induction n generalizing ls line with
  | zero => exact h0
  | succ n ih =>
    rw [labelLoop, if_neg (fun h => h0 h.2)]
    cases ls with
    | nil =>
      rw [getline]
      refine ih [] (by simp) _ ?_
      cases term <;> simp [h0]
    | cons x t =>
      rw [getline]
      rw [List.take_succ_cons] at h
      exact ih t (fun y hy => h y (List.mem_cons_of_mem _ hy)) x (h x (List.mem_cons_self ..))

theorem labelText_render (text : Str) (n : Nat) (cr : Bool) (ht : text.getLast? ≠ some ' ') (hne : text ≠ []) :
    labelText (dropCR ("#L ".toList ++ text ++ List.replicate n ' ' ++ (if cr then ['\r'] else []))) = text ∨
      (cr = false ∧ n = 0 ∧ text.getLast? = some '\r') := by
  have key : labelText ("#L ".toList ++ text ++ List.replicate n ' ') = text := by
    unfold labelText
    have h1 : ("#L ".toList ++ text ++ List.replicate n ' ').findIdx? (· == ' ') = some 2 := rfl
    have h2 : (("#L ".toList ++ text ++ List.replicate n ' ').reverse.dropWhile (· == ' ')).length = 3 + text.length := by
      rw [List.reverse_append, List.reverse_replicate]
      have : ∀ (m : Nat) (u : Str), (List.replicate m ' ' ++ u).dropWhile (· == ' ') = u.dropWhile (· == ' ') := by
        intro m u
        induction m with
        | zero => rfl
        | succ m ih => rw [List.replicate_succ, List.cons_append, List.dropWhile_cons_of_pos (by rfl), ih]
      rw [this, List.reverse_append]
      obtain ⟨u, d, hd⟩ : ∃ u d, text = u ++ [d] :=
        ⟨text.dropLast, text.getLast hne, (List.dropLast_append_getLast _).symm⟩
      have hd' : d ≠ ' ' := by
        intro h; apply ht; rw [hd, h]; simp
      rw [hd, List.reverse_append, List.reverse_singleton, List.singleton_append, List.cons_append,
        List.dropWhile_cons_of_neg (by simpa using hd')]
      simp
      omega
    rw [h1, h2]
    change (if 3 ≤ 3 + text.length then _ else _) = text
    rw [if_pos (by omega), List.append_assoc]
    have h3 : ("#L ".toList ++ (text ++ List.replicate n ' ')).take (3 + text.length) = "#L ".toList ++ text := by
      have hL : ("#L ".toList).length = 3 := rfl
      rw [List.take_append, List.take_of_length_le (by rw [hL]; omega), hL, Nat.add_sub_cancel_left,
        List.take_append_of_le_length (le_refl _), List.take_length]
    rw [h3]
    rfl
  cases cr with
  | true =>
    left
    unfold dropCR
    rw [if_pos rfl, if_pos List.getLast?_concat, List.dropLast_concat]
    exact key
  | false =>
    by_cases hx : n = 0 ∧ text.getLast? = some '\r'
    · exact Or.inr ⟨rfl, hx.1, hx.2⟩
    · left
      unfold dropCR
      rw [if_neg (show ¬ (false = true) by decide), List.append_nil, if_neg, key]
      intro h
      apply hx
      cases n with
      | zero =>
        refine ⟨rfl, ?_⟩
        obtain ⟨u, d, hd⟩ : ∃ u d, text = u ++ [d] :=
          ⟨text.dropLast, text.getLast hne, (List.dropLast_append_getLast _).symm⟩
        rw [hd] at h ⊢
        rw [List.replicate_zero, List.append_nil, ← List.append_assoc, List.getLast?_concat] at h
        rw [List.getLast?_concat, h]
      | succ n =>
        rw [List.replicate_succ', ← List.append_assoc, List.getLast?_concat] at h
        exact absurd h (by decide)

theorem render_last (first : Str) (others : List (Nat × Str)) (hf : Label first) (ho : ∀ p ∈ others, Label p.2) :
    (renderLabels first others).getLast? = ((first :: others.map Prod.snd).getLast?.bind List.getLast?) ∧
    renderLabels first others ≠ [] := by
  refine ⟨?_, by simp [renderLabels, hf.ne]⟩
  unfold renderLabels
  rcases List.eq_nil_or_concat others with rfl | ⟨t, p, rfl⟩
  · simp
  · have hp := ho p (by simp)
    obtain ⟨u, d, hd⟩ : ∃ u d, p.2 = u ++ [d] :=
      ⟨p.2.dropLast, p.2.getLast hp.ne, (List.dropLast_append_getLast _).symm⟩
    have hlast : (first :: List.map Prod.snd (t ++ [p])).getLast? = some p.2 := by
      rw [List.map_append, List.map_singleton, ← List.cons_append, List.getLast?_concat]
    rw [List.concat_eq_append, hlast, List.flatMap_append, List.flatMap_singleton, hd]
    simp only [Option.bind_some, List.getLast?_concat]
    rw [← List.append_assoc, ← List.append_assoc, ← List.append_assoc, List.getLast?_concat]

/-- C63. The labels of a scan: when the lines of a (closed) scan contain a first line `#L ` followed by labels
separated by two or more blanks, with trailing blanks or a carriage return, exactly these labels are returned in
order. -/
theorem C63_labels (f : File) (i : Nat) (block : List Str) (h : (blocks f.lines)[i]? = some block)
    (hc : Closed f i block) (first : Str) (others : List (Nat × Str)) (n : Nat) (cr : Bool)
    (hf : Label first) (ho : ∀ p ∈ others, Label p.2)
    (hcr : (first :: others.map Prod.snd).getLast?.bind List.getLast? ≠ some '\r')
    (pre post : List Str) (hpre : ∀ x ∈ pre, x.take 2 ≠ ['#', 'L'])
    (hblock : content block = pre ++ ("#L ".toList ++ renderLabels first others ++ List.replicate n ' ' ++
      (if cr then ['\r'] else [])) :: post) :
    getScanLabels (setFileName f) i = .ok (first :: others.map Prod.snd) := by
  obtain ⟨a, b, rest, h1, -, h3⟩ := ranges_block f.lines 0 i block h
  rcases h3 with ⟨-, hb, hd, -⟩ | ⟨hn, -⟩
  · unfold getScanLabels
    rw [if_neg (index_ok h), Int.toNat_natCast, setFileName_scans, vget_eq h1, Outcome.ok_bind]
    have hfile : (setFileName f).file = f := rfl
    dsimp only
    rw [Nat.sub_zero] at hd
    obtain ⟨line, hline⟩ : ∃ line, line = "#L ".toList ++ renderLabels first others ++ List.replicate n ' ' ++
      (if cr then ['\r'] else []) := ⟨_, rfl⟩
    rw [← hline] at hblock
    have htake : line.take 2 = ['#', 'L'] := by rw [hline]; rfl
    have hlen : ¬ line.length < 2 := by
      have := congrArg List.length htake
      simp at this
      omega
    have hloop : labelLoop f.terminated (1 + b - a) [] (f.lines.drop a) = line := by
      rw [hd, hblock, List.append_assoc, List.cons_append]
      apply labelLoop_spec _ _ _ _ htake hpre _ (by simp)
      have := congrArg List.length hblock
      simp at this
      omega
    rw [if_neg (by omega), hfile, hloop, if_neg hlen, if_neg (by simpa using htake)]
    obtain ⟨e1, e2⟩ := render_last first others hf ho
    have hlast : (renderLabels first others).getLast? ≠ some ' ' := by
      rw [e1]
      intro hx
      obtain ⟨l, hl, hl2⟩ := Option.bind_eq_some_iff.1 hx
      have hmem := List.mem_of_getLast? hl
      rcases List.mem_cons.1 hmem with rfl | hmem
      · exact hf.last hl2
      · obtain ⟨p, hp, rfl⟩ := List.mem_map.1 hmem
        exact (ho p hp).last hl2
    rcases labelText_render (renderLabels first others) n cr hlast e2 with e | ⟨-, -, e⟩
    · rw [hline, e, split_render first others hf.last hf.ne hf.inner false (by simp) ho]
    · rw [e1] at e
      exact absurd e hcr
  · exact absurd hc hn

/-- C63: without a line starting with `#L` in the scan, `runtime_error` is thrown. -/
theorem C63_no_label_line (f : File) (i : Nat) (block : List Str) (h : (blocks f.lines)[i]? = some block)
    (hno : ∀ x ∈ content block, x.take 2 ≠ ['#', 'L']) :
    getScanLabels (setFileName f) i = .throw .runtimeError := by
  by_cases hc : Closed f i block
  · obtain ⟨a, b, rest, h1, -, h3⟩ := ranges_block f.lines 0 i block h
    rcases h3 with ⟨-, hb, hd, hrest⟩ | ⟨hn, -⟩
    · unfold getScanLabels
      rw [if_neg (index_ok h), Int.toNat_natCast, setFileName_scans, vget_eq h1, Outcome.ok_bind]
      have hfile : (setFileName f).file = f := rfl
      dsimp only
      rw [Nat.sub_zero] at hd
      rw [if_neg (by omega), hfile, hd]
      have hl := labelLoop_none f.terminated (1 + b - a) (content block ++ rest) ?_ [] (by simp)
      · split
        · rfl
        · rfl
      · intro x hx
        have hx' : x ∈ content block ++ rest.take 1 := by
          rw [hb, show 1 + (a + (content block).length) - a = (content block).length + 1 by omega,
            List.take_append, Nat.add_sub_cancel_left, List.take_of_length_le (by omega)] at hx
          exact hx
        rcases List.mem_append.1 hx' with hx' | hx'
        · exact hno x hx'
        · cases rest with
          | nil => simp at hx'
          | cons y t =>
            simp at hx'
            subst hx'
            rcases hrest x rfl with hr | hr
            · intro he
              have := congrArg List.length he
              simp [isShort] at hr this
              omega
            · have : x.take 2 = ['#', 'S'] := by simpa [isScan] using hr
              rw [this]; decide
    · exact absurd hc hn
  · exact (C94_unseparated_violated (K := Nat) (fun _ => 0) f i block h hc).2

example : getScanLabels (setFileName (exampleFile "\n")) 0 = .ok [" x".toList, "y z".toList] := by decide +kernel
example : getScanLabels (setFileName (File.ofText (some "#S 1\n#L PhotonEnergy[keV]  a b   c \r\n1 2 3\n".toList))) 0 =
    .ok ["PhotonEnergy[keV]".toList, "a b".toList, "c".toList] := by decide +kernel
example : getScanLabels (setFileName (exampleFile "\n")) 1 = .throw .runtimeError := by decide +kernel

end Specfile
end Fisx
