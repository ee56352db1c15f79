import Verif.Ini

/-!
# Properties C35 to C38: the reader of ini files
-/

set_option linter.unusedSectionVars false

namespace Fisx
namespace Ini

/-! ## Specification of an ini document -/

/-- How a line is laid out: blank lines before it, blanks before and after its text. -/
structure Layout where
  before : List Str
  indent : Str
  trail : Str
deriving DecidableEq, Repr

/-- `key = value`, with blanks between the key and the sign, and continuation lines. -/
structure Entry where
  lay : Layout
  key : Str
  gap : Str
  value : Str
  more : List (Layout × Str)
deriving DecidableEq, Repr

/-- `[name] note` and the entries. -/
structure Section where
  lay : Layout
  name : Str
  note : Str
  entries : List Entry
deriving DecidableEq, Repr

/-- A document. -/
structure Doc where
  sections : List Section
  tail : List Str
deriving DecidableEq, Repr

/-- The lines of a laid out text. -/
def Layout.lines (l : Layout) (text : Str) : List Str := l.before ++ [l.indent ++ text ++ l.trail]

/-- The lines of an entry. -/
def Entry.lines (e : Entry) : List Str :=
  e.lay.lines (e.key ++ e.gap ++ '=' :: e.value) ++ e.more.flatMap (fun m => m.1.lines m.2)

/-- The lines of a section. -/
def Section.lines (s : Section) : List Str :=
  s.lay.lines ('[' :: (s.name ++ ']' :: s.note)) ++ s.entries.flatMap Entry.lines

/-- The lines of a document. -/
def Doc.lines (d : Doc) : List Str := d.sections.flatMap Section.lines ++ d.tail

/-- The text of the file: each line is followed by a newline. -/
def Doc.text (d : Doc) : Str := d.lines.flatMap (fun l => l ++ ['\n'])

/-- The text without the blanks outside of double quotes; `q` tells if a quote is open. -/
def squeeze : Bool → Str → Str
  | _, [] => []
  | q, c :: t =>
    if c = '"' then c :: squeeze (!q) t
    else if q then c :: squeeze q t
    else if isSpace c then squeeze q t
    else c :: squeeze q t

/-- What an entry says: the text after the sign followed by the continuation lines without blanks. -/
def Entry.text (e : Entry) : Str := e.value ++ (e.more.map (fun m => squeeze false m.2)).flatten

/-- What a document says about a key of a section: the last entry with that key in the sections with that name. -/
def Doc.value (d : Doc) (name key : Str) : Option Str :=
  (((d.sections.filter (fun s => s.name = name)).flatMap Section.entries).filter
    (fun e => e.key = key)).getLast?.map Entry.text

/-- Double quotes are matched and `bad` characters only appear between them. -/
def plain (bad : Char → Bool) : Bool → Str → Bool
  | q, [] => !q
  | q, c :: t =>
    if c = '"' then plain bad (!q) t
    else if q then plain bad q t
    else !bad c && plain bad q t

/-- A line of blanks. -/
def blank (l : Str) : Prop := ∀ c ∈ l, c = ' ' ∨ c = '\t' ∨ c = '\r'

/-- The text does not end with a blank. -/
def noTrail (l : Str) : Prop := ∀ c, l.getLast? = some c → isTrim c = false

/-- Well formed layouts. -/
def Layout.WF (l : Layout) : Prop := (∀ b ∈ l.before, blank b) ∧ blank l.indent ∧ blank l.trail

/-- The characters starting a comment. -/
def commentSign (c : Char) : Bool := c == '#' || c == ';'

/-- Well formed continuation lines: no `=` and no comment outside of quotes, not starting with a bracket. -/
def MoreWF (m : Layout × Str) : Prop :=
  m.1.WF ∧ (∃ c t, m.2 = c :: t ∧ isSpace c = false ∧ c ≠ '[') ∧ noTrail m.2 ∧ '\n' ∉ m.2 ∧
  plain (fun c => commentSign c || c == '=') false m.2 = true

/-- Well formed entries. -/
structure Entry.WF (e : Entry) : Prop where
  lay : e.lay.WF
  key_ne : e.key ≠ []
  key : ∀ c ∈ e.key, isSpace c = false ∧ c ≠ '"' ∧ c ≠ '=' ∧ commentSign c = false
  bracket : e.key.head? ≠ some '['
  gap : blank e.gap
  value : plain commentSign false e.value = true
  newline : '\n' ∉ e.value
  trail : noTrail e.value
  more : ∀ m ∈ e.more, MoreWF m

/-- Well formed sections. -/
structure Section.WF (s : Section) : Prop where
  lay : s.lay.WF
  name_ne : s.name ≠ []
  name : ∀ c ∈ s.name, c ≠ '[' ∧ c ≠ ']' ∧ c ≠ '\n'
  note : ∀ c ∈ s.note, c ≠ '[' ∧ c ≠ ']' ∧ c ≠ '\n'
  trail : noTrail s.note
  entries : ∀ e ∈ s.entries, e.WF

/-- Well formed documents. -/
structure Doc.WF (d : Doc) : Prop where
  sections : ∀ s ∈ d.sections, s.WF
  tail : ∀ l ∈ d.tail, blank l

/-! ## Lines -/

theorem linesFrom_line {l : Str} (h : '\n' ∉ l) (cur rest : Str) :
    linesFrom cur (l ++ '\n' :: rest) = (cur ++ l) :: linesFrom [] rest := by
  induction l generalizing cur with
  | nil => simp [linesFrom]
  | cons c t ih =>
    simp only [List.mem_cons, not_or] at h
    simp only [List.cons_append, linesFrom]
    rw [if_neg (Ne.symm h.1), ih h.2]
    simp

theorem lines_join {ls : List Str} (h : ∀ l ∈ ls, '\n' ∉ l) :
    lines (ls.flatMap (fun l => l ++ ['\n'])) = ls := by
  induction ls with
  | nil => rfl
  | cons l t ih =>
    have ht := ih (fun x hx => h x (List.mem_cons_of_mem _ hx))
    unfold lines at ht ⊢
    rw [List.flatMap_cons]
    simp only [List.append_assoc, List.cons_append, List.nil_append]
    rw [linesFrom_line (h l (List.mem_cons_self ..)), ht]
    simp

theorem blank_trim {l : Str} (h : blank l) : ∀ c ∈ l, isTrim c = true := by
  intro c hc
  rcases h c hc with rfl | rfl | rfl <;> rfl

theorem blank_space {l : Str} (h : blank l) : ∀ c ∈ l, isSpace c = true := by
  intro c hc
  rcases h c hc with rfl | rfl | rfl <;> rfl

theorem blank_newline {l : Str} (h : blank l) : '\n' ∉ l := by
  intro hc
  rcases h _ hc with h | h | h <;> revert h <;> decide

theorem dropWhile_all {l : Str} (h : ∀ c ∈ l, isTrim c = true) (r : Str) :
    (l ++ r).dropWhile isTrim = r.dropWhile isTrim := by
  induction l with
  | nil => rfl
  | cons c t ih =>
    rw [List.cons_append, List.dropWhile_cons_of_pos (h c (List.mem_cons_self ..)),
      ih (fun x hx => h x (List.mem_cons_of_mem _ hx))]

theorem trim_blank {l : Str} (h : blank l) : trim l = [] := by
  unfold trim
  have := dropWhile_all (l := l.reverse) (fun c hc => blank_trim h c (List.mem_reverse.1 hc)) []
  simp only [List.append_nil, List.dropWhile_nil] at this
  rw [this]; rfl

theorem trim_text {a b : Str} {c : Char} {t : Str} (ha : blank a) (hb : blank b) (hc : isTrim c = false)
    (hl : noTrail (c :: t)) : trim (a ++ c :: t ++ b) = c :: t := by
  unfold trim
  rw [List.reverse_append, dropWhile_all (fun x hx => blank_trim hb x (List.mem_reverse.1 hx)),
    List.reverse_append]
  have hlast : ((c :: t).reverse ++ a.reverse).dropWhile isTrim = (c :: t).reverse ++ a.reverse := by
    obtain ⟨u, d, hd⟩ : ∃ u d, c :: t = u ++ [d] :=
      ⟨(c :: t).dropLast, (c :: t).getLast (by simp), (List.dropLast_append_getLast _).symm⟩
    rw [hd, List.reverse_append, List.reverse_singleton, List.singleton_append, List.cons_append,
      List.dropWhile_cons_of_neg]
    have := hl d (by rw [hd, List.getLast?_append]; simp)
    simp [this]
  rw [hlast, ← List.reverse_append, List.reverse_reverse, dropWhile_all (blank_trim ha),
    List.dropWhile_cons_of_neg (by simp [hc])]

/-! ## Characters -/

theorem scan_key {k : Str} (h : ∀ c ∈ k, isSpace c = false ∧ c ≠ '"' ∧ c ≠ '=' ∧ commentSign c = false)
    (rest out : Str) : scan (k ++ rest) { out := out, quotes := 0, eq := 0 } =
      scan rest { out := out ++ k, quotes := 0, eq := 0 } := by
  induction k generalizing out with
  | nil => simp
  | cons c t ih =>
    obtain ⟨h1, h2, h3, h4⟩ := h c (List.mem_cons_self ..)
    have h5 : ¬ (c = '#' ∨ c = ';') := by simpa [commentSign] using h4
    rw [List.cons_append, scan, if_neg h2, if_neg (by simp), if_neg h5]
    simp only [h1, h3, false_and, if_false, if_true, Bool.false_eq_true]
    rw [ih (fun x hx => h x (List.mem_cons_of_mem _ hx))]
    simp

theorem scan_gap {g : Str} (h : blank g) (rest out : Str) :
    scan (g ++ rest) { out := out, quotes := 0, eq := 0 } = scan rest { out := out, quotes := 0, eq := 0 } := by
  induction g with
  | nil => simp
  | cons c t ih =>
    have ih := ih (fun x hx => h x (List.mem_cons_of_mem _ hx))
    rw [List.cons_append, scan]
    rcases h c (List.mem_cons_self ..) with rfl | rfl | rfl <;>
    · simpa [isSpace] using ih

theorem scan_value {v : Str} (out : Str) (q e : Nat) (he : e ≠ 0)
    (h : plain commentSign (decide (q % 2 = 1)) v = true) :
    ∃ q', scan v { out := out, quotes := q, eq := e } = { out := out ++ v, quotes := q', eq := e } ∧ q' % 2 = 0 := by
  induction v generalizing out q with
  | nil =>
    refine ⟨q, by simp [scan], ?_⟩
    simp [plain] at h; omega
  | cons c t ih =>
    rw [plain] at h
    rw [scan]
    by_cases hc : c = '"'
    · rw [if_pos hc] at h ⊢
      have hpar : (!decide (q % 2 = 1)) = decide ((q + 1) % 2 = 1) := by
        rcases Nat.mod_two_eq_zero_or_one q with h0 | h0 <;> simp [h0] <;> omega
      rw [hpar] at h
      obtain ⟨q', h1, h2⟩ := ih (out ++ [c]) (q + 1) h
      exact ⟨q', by rw [h1]; simp, h2⟩
    · rw [if_neg hc] at h ⊢
      by_cases hq : q % 2 = 1
      · rw [if_pos hq]
        simp only [hq, decide_true, if_true] at h
        obtain ⟨q', h1, h2⟩ := ih (out ++ [c]) q (by simpa [hq] using h)
        exact ⟨q', by rw [h1]; simp, h2⟩
      · rw [if_neg hq]
        simp only [hq, decide_false, Bool.false_eq_true, if_false, Bool.and_eq_true, Bool.not_eq_true'] at h
        have h5 : ¬ (c = '#' ∨ c = ';') := by simpa [commentSign] using h.1
        rw [if_neg h5]
        simp only [he, if_false, and_false]
        obtain ⟨q', h1, h2⟩ := ih (out ++ [c]) q (by simpa [hq] using h.2)
        exact ⟨q', by rw [h1]; simp, h2⟩

theorem scan_more {v : Str} (out : Str) (q : Nat)
    (h : plain (fun c => commentSign c || c == '=') (decide (q % 2 = 1)) v = true) :
    ∃ q', scan v { out := out, quotes := q, eq := 0 } =
      { out := out ++ squeeze (decide (q % 2 = 1)) v, quotes := q', eq := 0 } ∧ q' % 2 = 0 := by
  induction v generalizing out q with
  | nil =>
    refine ⟨q, by simp [scan, squeeze], ?_⟩
    simp [plain] at h; omega
  | cons c t ih =>
    rw [plain] at h
    rw [scan, squeeze]
    by_cases hc : c = '"'
    · rw [if_pos hc] at h ⊢
      rw [if_pos hc]
      have hpar : (!decide (q % 2 = 1)) = decide ((q + 1) % 2 = 1) := by
        rcases Nat.mod_two_eq_zero_or_one q with h0 | h0 <;> simp [h0] <;> omega
      rw [hpar] at h ⊢
      obtain ⟨q', h1, h2⟩ := ih (out ++ [c]) (q + 1) h
      exact ⟨q', by rw [h1]; simp, h2⟩
    · rw [if_neg hc] at h ⊢
      rw [if_neg hc]
      by_cases hq : q % 2 = 1
      · rw [if_pos hq]
        simp only [hq, decide_true, if_true] at h ⊢
        obtain ⟨q', h1, h2⟩ := ih (out ++ [c]) q (by simpa [hq] using h)
        exact ⟨q', by rw [h1]; simp [hq], h2⟩
      · rw [if_neg hq]
        simp only [hq, decide_false, Bool.false_eq_true, if_false, Bool.and_eq_true, Bool.not_eq_true',
          Bool.or_eq_false_iff] at h ⊢
        have h5 : ¬ (c = '#' ∨ c = ';') := by simpa [commentSign] using h.1.1
        have h6 : c ≠ '=' := by simpa using h.1.2
        rw [if_neg h5]
        simp only [h6, false_and, if_false, if_true]
        by_cases hs : isSpace c = true
        · simp only [hs, if_true]
          obtain ⟨q', h1, h2⟩ := ih out q (by simpa [hq] using h.2)
          exact ⟨q', by rw [h1]; simp [hq], h2⟩
        · simp only [hs, if_false, Bool.false_eq_true]
          obtain ⟨q', h1, h2⟩ := ih (out ++ [c]) q (by simpa [hq] using h.2)
          exact ⟨q', by rw [h1]; simp [hq], h2⟩

/-! ## One line -/

theorem readLine_blank {l : Str} (h : blank l) (st : State) : readLine st l = (.ok (), st) := by
  rw [readLine, trim_blank h]

theorem isTrim_isSpace {c : Char} (h : isSpace c = false) : isTrim c = false := by
  simp [isSpace] at h
  simp [isTrim, h]

theorem readLine_header {s : Section} (h : s.WF) (st : State) :
    readLine st (s.lay.indent ++ '[' :: (s.name ++ ']' :: s.note) ++ s.lay.trail) =
      (.ok (), { st with main := s.name,
                         reader := { st.reader with sections := st.reader.sections ++ [s.name] } }) := by
  have hl : noTrail ('[' :: (s.name ++ ']' :: s.note)) := by
    intro c hc
    rw [List.getLast?_cons, List.getLast?_append, List.getLast?_cons] at hc
    cases hn : s.note.getLast? with
    | none =>
      rw [hn] at hc
      simp at hc; subst hc; rfl
    | some d =>
      rw [hn] at hc
      simp at hc; subst hc; exact h.trail _ hn
  rw [readLine, trim_text h.lay.2.1 h.lay.2.2 (by rfl) hl]
  dsimp only
  rw [if_pos rfl, header]
  have hidx : (s.name ++ ']' :: s.note).findIdx (· == ']') = s.name.length := by
    rw [List.findIdx_append]
    have h1 : List.findIdx (· == ']') s.name = s.name.length := by
      rw [List.findIdx_eq_length]
      intro c hc
      simpa using (h.name c hc).2.1
    rw [h1]
    simp [List.findIdx_cons]
  have hcount : (s.name ++ ']' :: s.note).count ']' = 1 := by
    rw [List.count_append, List.count_cons]
    have h1 : s.name.count ']' = 0 := List.count_eq_zero.2 (fun hc => (h.name _ hc).2.1 rfl)
    have h2 : s.note.count ']' = 0 := List.count_eq_zero.2 (fun hc => (h.note _ hc).2.1 rfl)
    simp [h1, h2]
  have hno : '[' ∉ s.name ++ ']' :: s.note := by
    intro hc
    rcases List.mem_append.1 hc with hc | hc
    · exact (h.name _ hc).1 rfl
    · rcases List.mem_cons.1 hc with hc | hc
      · revert hc; decide
      · exact (h.note _ hc).1 rfl
  have hpos : ¬ s.name.length < 1 := by
    have := List.length_pos_iff.2 h.name_ne; omega
  rw [if_neg hno, hidx, hcount, if_neg (not_or.2 ⟨fun h => h rfl, hpos⟩)]
  simp

theorem readLine_entry {e : Entry} (h : e.WF) (st : State) :
    readLine st (e.lay.indent ++ (e.key ++ e.gap ++ '=' :: e.value) ++ e.lay.trail) =
      (.ok (), { st with key := e.key, reader := setEntry st.reader st.main e.key e.value }) := by
  obtain ⟨c, k, hk⟩ : ∃ c k, e.key = c :: k := List.exists_cons_of_ne_nil h.key_ne
  have hc : isSpace c = false ∧ c ≠ '"' ∧ c ≠ '=' ∧ commentSign c = false :=
    h.key c (by rw [hk]; exact List.mem_cons_self ..)
  have hb : c ≠ '[' := by
    intro hb; apply h.bracket; rw [hk, hb]; rfl
  have hl : noTrail (e.key ++ e.gap ++ '=' :: e.value) := by
    intro d hd
    rw [List.getLast?_append, List.getLast?_cons] at hd
    cases hn : e.value.getLast? with
    | none => rw [hn] at hd; simp at hd; subst hd; rfl
    | some x => rw [hn] at hd; simp at hd; subst hd; exact h.trail _ hn
  obtain ⟨q', h1, h2⟩ := scan_value (v := e.value) (e.key ++ ['=']) 0 e.key.length
    (by rw [hk]; simp) (by simpa using h.value)
  have hscan : scan (e.key ++ e.gap ++ '=' :: e.value) { out := [], quotes := 0, eq := 0 } =
      { out := e.key ++ '=' :: e.value, quotes := q', eq := e.key.length } := by
    rw [List.append_assoc, scan_key h.key, scan_gap h.gap, scan]
    simpa [isSpace] using h1
  rw [hk] at hl hscan
  simp only [List.cons_append] at hl hscan
  rw [hk]
  simp only [List.cons_append]
  rw [readLine, trim_text h.lay.2.1 h.lay.2.2 (isTrim_isSpace hc.1) hl]
  dsimp only
  rw [if_neg hb, body, hscan]
  dsimp only
  rw [if_neg (by omega), if_neg (by simp), if_pos (by simp)]
  simp

theorem squeeze_ne {c : Char} {t : Str} (h : isSpace c = false) : squeeze false (c :: t) ≠ [] := by
  rw [squeeze]
  by_cases hc : c = '"'
  · simp [hc]
  · simp [hc, h]

theorem readLine_more {m : Layout × Str} (h : MoreWF m) (st : State) (hk : st.key ≠ []) (hm : st.main ≠ []) :
    readLine st (m.1.indent ++ m.2 ++ m.1.trail) =
      (.ok (), { st with reader := (setEntry st.reader st.main st.key (((entry st.reader.contents st.main).find? st.key).getD [] ++ squeeze false m.2)) }) := by
  obtain ⟨hlay, ⟨c, t, hct, hc, hb⟩, htrail, -, hp⟩ := h
  obtain ⟨q', h1, h2⟩ := scan_more (v := m.2) [] 0 (by simpa using hp)
  rw [hct] at htrail h1 ⊢
  rw [readLine, trim_text hlay.2.1 hlay.2.2 (isTrim_isSpace hc) htrail]
  dsimp only
  rw [if_neg hb, body, h1]
  have hne := squeeze_ne (t := t) hc
  have hpos := List.length_pos_iff.2 hne
  have hkp := List.length_pos_iff.2 hk
  have hmp := List.length_pos_iff.2 hm
  dsimp only
  rw [if_neg (by omega), if_neg (by simpa using hne), if_neg (by simp), if_pos ⟨hkp, hmp⟩]
  simp

/-! ## All the lines -/

theorem readLines_ok {st st' : State} {l : Str} (h : readLine st l = (.ok (), st')) (rest : List Str) :
    readLines st (l :: rest) = readLines st' rest := by
  rw [readLines, h]

theorem readLines_blanks {bs : List Str} (h : ∀ b ∈ bs, blank b) (st : State) (rest : List Str) :
    readLines st (bs ++ rest) = readLines st rest := by
  induction bs with
  | nil => rfl
  | cons b t ih =>
    rw [List.cons_append, readLines_ok (readLine_blank (h b (List.mem_cons_self ..)) st),
      ih (fun x hx => h x (List.mem_cons_of_mem _ hx))]

/-- The value a reader has for a key of a section. -/
def lookup (r : Reader) (name key : Str) : Option Str := (r.contents.find? name).bind (fun m => m.find? key)

theorem entry_find (r : Reader) (name key : Str) : (entry r.contents name).find? key = lookup r name key := by
  unfold entry lookup
  cases r.contents.find? name <;> simp

theorem lookup_set (r : Reader) (main key content name k : Str) :
    lookup (setEntry r main key content) name k =
      if name = main ∧ k = key then some content else lookup r name k := by
  simp only [lookup, setEntry, SMap.find?_insert]
  by_cases h : main = name
  · subst h
    simp only [if_true, Option.bind_some, SMap.find?_insert]
    rw [entry_find]
    by_cases h2 : key = k
    · simp [h2]
    · simp [h2, Ne.symm h2, lookup]
  · simp [h, Ne.symm h]

theorem readLines_more {ms : List (Layout × Str)} (h : ∀ m ∈ ms, MoreWF m) (st : State) (hk : st.key ≠ [])
    (hm : st.main ≠ []) (v : Str) (hv : lookup st.reader st.main st.key = some v) (rest : List Str) :
    ∃ st', readLines st (ms.flatMap (fun m => m.1.lines m.2) ++ rest) = readLines st' rest ∧
      st'.main = st.main ∧ st'.reader.sections = st.reader.sections ∧
      ∀ n k, lookup st'.reader n k = if n = st.main ∧ k = st.key
        then some (v ++ (ms.map (fun m => squeeze false m.2)).flatten) else lookup st.reader n k := by
  induction ms generalizing st v with
  | nil =>
    refine ⟨st, rfl, rfl, rfl, fun n k => ?_⟩
    split
    · next h => rw [h.1, h.2, hv]; simp
    · rfl
  | cons m t ih =>
    have hmw := h m (List.mem_cons_self ..)
    rw [List.flatMap_cons, Layout.lines, List.append_assoc, List.append_assoc,
      readLines_blanks hmw.1.1, List.singleton_append, readLines_ok (readLine_more hmw st hk hm)]
    rw [entry_find, hv, Option.getD_some]
    obtain ⟨st', h1, h2, h3, h4⟩ := ih (fun x hx => h x (List.mem_cons_of_mem _ hx))
      { st with reader := setEntry st.reader st.main st.key (v ++ squeeze false m.2) } hk hm
      (v ++ squeeze false m.2) (by simp [lookup_set])
    refine ⟨st', h1, h2, h3, fun n k => ?_⟩
    rw [h4]
    by_cases hnk : n = st.main ∧ k = st.key
    · rw [if_pos hnk, if_pos hnk]; simp
    · rw [if_neg hnk, if_neg hnk]
      dsimp only
      rw [lookup_set, if_neg hnk]

theorem readLines_entry {e : Entry} (h : e.WF) (st : State) (hm : st.main ≠ []) (rest : List Str) :
    ∃ st', readLines st (e.lines ++ rest) = readLines st' rest ∧
      st'.main = st.main ∧ st'.reader.sections = st.reader.sections ∧
      ∀ n k, lookup st'.reader n k = if n = st.main ∧ k = e.key then some e.text else lookup st.reader n k := by
  rw [Entry.lines, Layout.lines, List.append_assoc, List.append_assoc, readLines_blanks h.lay.1,
    List.singleton_append, readLines_ok (readLine_entry h st)]
  obtain ⟨st', h1, h2, h3, h4⟩ := readLines_more h.more
    { st with key := e.key, reader := setEntry st.reader st.main e.key e.value } h.key_ne hm e.value
    (by simp [lookup_set]) rest
  refine ⟨st', h1, h2, h3, fun n k => ?_⟩
  rw [h4]
  by_cases hnk : n = st.main ∧ k = e.key
  · rw [if_pos hnk, if_pos hnk]; rfl
  · rw [if_neg hnk, if_neg hnk]
    dsimp only
    rw [lookup_set, if_neg hnk]

/-- The last of the entries with a key. -/
def lastText (es : List Entry) (key : Str) : Option Str :=
  (es.filter (fun e => e.key = key)).getLast?.map Entry.text

theorem lastText_cons (e : Entry) (es : List Entry) (key : Str) :
    lastText (e :: es) key = (lastText es key).or (if e.key = key then some e.text else none) := by
  unfold lastText
  by_cases h : e.key = key
  · rw [List.filter_cons_of_pos (by simpa using h), List.getLast?_cons, if_pos h]
    cases (es.filter (fun e => e.key = key)).getLast? <;> simp
  · rw [List.filter_cons_of_neg (by simpa using h), if_neg h]
    simp

theorem lastText_append (es fs : List Entry) (key : Str) :
    lastText (es ++ fs) key = (lastText fs key).or (lastText es key) := by
  unfold lastText
  rw [List.filter_append, List.getLast?_append]
  cases (fs.filter (fun e => e.key = key)).getLast? <;> simp

theorem readLines_entries {es : List Entry} (h : ∀ e ∈ es, e.WF) (st : State) (hm : st.main ≠ [])
    (rest : List Str) :
    ∃ st', readLines st (es.flatMap Entry.lines ++ rest) = readLines st' rest ∧
      st'.main = st.main ∧ st'.reader.sections = st.reader.sections ∧
      ∀ n k, lookup st'.reader n k =
        (if n = st.main then lastText es k else none).or (lookup st.reader n k) := by
  induction es generalizing st with
  | nil => exact ⟨st, rfl, rfl, rfl, fun n k => by simp [lastText]⟩
  | cons e t ih =>
    rw [List.flatMap_cons, List.append_assoc]
    obtain ⟨s1, a1, a2, a3, a4⟩ := readLines_entry (h e (List.mem_cons_self ..)) st hm (t.flatMap Entry.lines ++ rest)
    obtain ⟨s2, b1, b2, b3, b4⟩ := ih (fun x hx => h x (List.mem_cons_of_mem _ hx)) s1 (by rw [a2]; exact hm)
    refine ⟨s2, a1.trans b1, b2.trans a2, b3.trans a3, fun n k => ?_⟩
    rw [b4, a4, a2, lastText_cons]
    by_cases hn : n = st.main
    · by_cases hk : k = e.key
      · subst hk; simp [hn]
      · simp [hn, hk, Ne.symm hk]
    · simp [hn]

theorem readLines_section {s : Section} (h : s.WF) (st : State) (rest : List Str) :
    ∃ st', readLines st (s.lines ++ rest) = readLines st' rest ∧
      st'.reader.sections = st.reader.sections ++ [s.name] ∧
      ∀ n k, lookup st'.reader n k =
        (if n = s.name then lastText s.entries k else none).or (lookup st.reader n k) := by
  rw [Section.lines, Layout.lines, List.append_assoc, List.append_assoc, readLines_blanks h.lay.1,
    List.singleton_append, readLines_ok (readLine_header h st)]
  obtain ⟨s1, a1, -, a3, a4⟩ := readLines_entries h.entries
    { st with main := s.name, reader := { st.reader with sections := st.reader.sections ++ [s.name] } }
    h.name_ne rest
  exact ⟨s1, a1, a3, a4⟩

theorem readLines_sections {ss : List Section} (h : ∀ s ∈ ss, s.WF) (st : State) (rest : List Str) :
    ∃ st', readLines st (ss.flatMap Section.lines ++ rest) = readLines st' rest ∧
      st'.reader.sections = st.reader.sections ++ ss.map Section.name ∧
      ∀ n k, lookup st'.reader n k =
        (lastText ((ss.filter (fun s => s.name = n)).flatMap Section.entries) k).or (lookup st.reader n k) := by
  induction ss generalizing st with
  | nil => exact ⟨st, rfl, by simp, fun n k => by simp [lastText]⟩
  | cons s t ih =>
    rw [List.flatMap_cons, List.append_assoc]
    obtain ⟨s1, a1, a2, a3⟩ := readLines_section (h s (List.mem_cons_self ..)) st (t.flatMap Section.lines ++ rest)
    obtain ⟨s2, b1, b2, b3⟩ := ih (fun x hx => h x (List.mem_cons_of_mem _ hx)) s1
    refine ⟨s2, a1.trans b1, by rw [b2, a2]; simp, fun n k => ?_⟩
    rw [b3, a3]
    by_cases hn : n = s.name
    · subst hn
      rw [List.filter_cons_of_pos (by simp), List.flatMap_cons, lastText_append]
      simp [Option.or_assoc]
    · rw [List.filter_cons_of_neg (by simpa using Ne.symm hn)]
      simp [hn]

theorem Doc.noNewline {d : Doc} (h : d.WF) : ∀ l ∈ d.lines, '\n' ∉ l := by
  have hlay : ∀ (l : Layout) (t : Str), l.WF → '\n' ∉ t → ∀ x ∈ l.lines t, '\n' ∉ x := by
    intro l t hl ht x hx
    rcases List.mem_append.1 hx with hx | hx
    · exact blank_newline (hl.1 x hx)
    · rw [List.mem_singleton] at hx
      subst hx
      simp only [List.mem_append, not_or]
      exact ⟨⟨blank_newline hl.2.1, ht⟩, blank_newline hl.2.2⟩
  intro l hl
  rcases List.mem_append.1 hl with hl | hl
  · obtain ⟨s, hs, hl⟩ := List.mem_flatMap.1 hl
    have hsw := h.sections s hs
    rcases List.mem_append.1 hl with hl | hl
    · refine hlay _ _ hsw.lay ?_ l hl
      intro hc
      rcases List.mem_cons.1 hc with hc | hc
      · revert hc; decide
      rcases List.mem_append.1 hc with hc | hc
      · exact (hsw.name _ hc).2.2 rfl
      rcases List.mem_cons.1 hc with hc | hc
      · revert hc; decide
      · exact (hsw.note _ hc).2.2 rfl
    · obtain ⟨e, he, hl⟩ := List.mem_flatMap.1 hl
      have hew := hsw.entries e he
      rcases List.mem_append.1 hl with hl | hl
      · refine hlay _ _ hew.lay ?_ l hl
        intro hc
        rcases List.mem_append.1 hc with hc | hc
        · rcases List.mem_append.1 hc with hc | hc
          · have := (hew.key _ hc).1; revert this; decide
          · exact blank_newline hew.gap hc
        rcases List.mem_cons.1 hc with hc | hc
        · revert hc; decide
        · exact hew.newline hc
      · obtain ⟨m, hm, hl⟩ := List.mem_flatMap.1 hl
        obtain ⟨h1, -, -, h4, -⟩ := hew.more m hm
        exact hlay _ _ h1 h4 l hl
  · exact blank_newline (h.tail l hl)

/-! ## C35 -/

theorem read_doc {d : Doc} (h : d.WF) (r : Reader) :
    ∃ r', read r (some d.text) = (.ok (), r') ∧ getSections r' = d.sections.map Section.name ∧
      ∀ n k, lookup r' n k = (d.value n k).or (lookup r n k) := by
  obtain ⟨st', h1, h2, h3⟩ := readLines_sections h.sections
    { reader := { r with sections := [] }, main := [], key := [] } (d.tail ++ [])
  rw [readLines_blanks h.tail, List.append_nil, readLines] at h1
  refine ⟨st'.reader, ?_, by simpa [getSections] using h2, fun n k => h3 n k⟩
  simp only [read]
  rw [show lines d.text = d.lines from lines_join (Doc.noNewline h), Doc.lines, h1]

theorem readSection_lookup (r : Reader) (name key : Str) :
    (readSection r name true).1.find? key = lookup r name key := by
  unfold readSection lookup
  cases r.contents.find? name <;> simp

/-- C35. Reading a well formed document with a new reader succeeds, the sections are those of the document in order
and the value found for each key in each section is the text written for it (and there is no other value). -/
theorem C35_faithful {d : Doc} (h : d.WF) :
    ∃ r, read new (some d.text) = (.ok (), r) ∧ getSections r = d.sections.map Section.name ∧
      ∀ name key, (readSection r name true).1.find? key = d.value name key := by
  obtain ⟨r, h1, h2, h3⟩ := read_doc h new
  refine ⟨r, h1, h2, fun n k => ?_⟩
  rw [readSection_lookup, h3]
  simp [lookup, new]

theorem linesFrom_newline : ∀ (t cur : Str), linesFrom cur (t ++ ['\n']) = linesFrom cur t ∨
    linesFrom cur (t ++ ['\n']) = linesFrom cur t ++ [[]]
  | [], cur => by
    by_cases h : cur = []
    · subst h
      exact Or.inr rfl
    · left
      simp [linesFrom, h]
  | c :: t, cur => by
    by_cases h : c = '\n'
    · subst h
      rcases linesFrom_newline t [] with h | h
      · left
        simp [linesFrom, h]
      · right
        simp [linesFrom, h]
    · rcases linesFrom_newline t (cur ++ [c]) with h' | h'
      · left
        simp [linesFrom, h, h']
      · right
        simp [linesFrom, h, h']

theorem readLines_blank : ∀ (ls : List Str) (st : State), readLines st (ls ++ [[]]) = readLines st ls
  | [], st => rfl
  | l :: ls, st => by
    simp only [List.cons_append, readLines]
    split
    · exact readLines_blank ls _
    · rfl

/-- C35: the last line counts whether or not it is ended by a newline. -/
theorem C35_final_newline (r : Reader) (text : Str) : read r (some (text ++ ['\n'])) = read r (some text) := by
  unfold read lines
  dsimp only
  rcases linesFrom_newline text [] with h | h
  · rw [h]
  · rw [h, readLines_blank]

/-- C35: an ini document without the final newline is read as well as with it. -/
theorem C35_faithful_unterminated {d : Doc} (h : d.WF) (text : Str) (ht : text ++ ['\n'] = d.text) :
    ∃ r, read new (some text) = (.ok (), r) ∧ getSections r = d.sections.map Section.name ∧
      ∀ name key, (readSection r name true).1.find? key = d.value name key := by
  rw [← C35_final_newline, ht]
  exact C35_faithful h

example : (readSection (read new (some "[A]\nk=1".toList)).2 "A".toList true).1 = [(['k'], ['1'])] := by decide +kernel

/-- A document with an indented section, two entries of the same key, quotes, a continuation line and a note. -/
def exampleDoc : Doc :=
  { sections :=
      [{ lay := { before := ["  ".toList], indent := [], trail := ['\r'] }, name := "fit".toList, note := " first".toList,
         entries := [{ lay := { before := [], indent := [' '], trail := [' ', '\r'] }, key := "energy".toList,
                       gap := [' '], value := " 16.0, \"a # b\"".toList,
                       more := [({ before := [[]], indent := ['\t'], trail := [] }, "17.0, 18".toList)] },
                     { lay := { before := [], indent := [], trail := [] }, key := "flag".toList, gap := [], value := [],
                       more := [] }] },
       { lay := { before := [], indent := [], trail := [] }, name := "fit.other".toList, note := [],
         entries := [{ lay := { before := [], indent := [], trail := [] }, key := "flag".toList, gap := [],
                       value := "1=2".toList, more := [] }] }]
    tail := [[' ']] }

theorem exampleDoc_wf : exampleDoc.WF := by
  have hlay : ∀ (l : Layout), (∀ b ∈ l.before, b.all (fun c => c = ' ' ∨ c = '\t' ∨ c = '\r') = true) →
      l.indent.all (fun c => c = ' ' ∨ c = '\t' ∨ c = '\r') = true →
      l.trail.all (fun c => c = ' ' ∨ c = '\t' ∨ c = '\r') = true → l.WF := by
    intro l h1 h2 h3
    refine ⟨fun b hb c hc => ?_, fun c hc => ?_, fun c hc => ?_⟩
    · simpa using List.all_eq_true.1 (h1 b hb) c hc
    · simpa using List.all_eq_true.1 h2 c hc
    · simpa using List.all_eq_true.1 h3 c hc
  have htr : ∀ l : Str, (l.getLast?.all (fun c => !isTrim c)) = true → noTrail l := by
    intro l h c hc
    rw [hc] at h
    simpa using h
  refine ⟨?_, ?_⟩
  · intro s hs
    simp only [exampleDoc, List.mem_cons, List.not_mem_nil, or_false] at hs
    rcases hs with rfl | rfl
    · refine ⟨hlay _ (by decide) (by decide) (by decide), by decide, by decide, by decide, htr _ (by decide), ?_⟩
      intro e he
      simp only [List.mem_cons, List.not_mem_nil, or_false] at he
      rcases he with rfl | rfl
      · refine ⟨hlay _ (by decide) (by decide) (by decide), by decide, by decide, by decide, ?_, by decide, by decide,
          htr _ (by decide), ?_⟩
        · unfold blank; decide
        · intro m hm
          simp only [List.mem_cons, List.not_mem_nil, or_false] at hm
          subst hm
          exact ⟨hlay _ (by decide) (by decide) (by decide), ⟨'1', "7.0, 18".toList, by decide, by decide, by decide⟩,
            htr _ (by decide), by decide, by decide⟩
      · exact ⟨hlay _ (by decide) (by decide) (by decide), by decide, by decide, by decide, by unfold blank; decide,
          by decide, by decide, htr _ (by decide), by simp⟩
    · refine ⟨hlay _ (by decide) (by decide) (by decide), by decide, by decide, by decide, htr _ (by decide), ?_⟩
      intro e he
      simp only [List.mem_cons, List.not_mem_nil, or_false] at he
      subst he
      exact ⟨hlay _ (by decide) (by decide) (by decide), by decide, by decide, by decide, by unfold blank; decide,
          by decide, by decide, htr _ (by decide), by simp⟩
  · intro l hl
    simp only [exampleDoc, List.mem_cons, List.not_mem_nil, or_false] at hl
    subst hl
    unfold blank; decide

example : exampleDoc.text = "  \n[fit] first\r\n energy = 16.0, \"a # b\" \r\n\n\t17.0, 18\nflag=\n[fit.other]\nflag=1=2\n \n".toList := by
  decide +kernel
example : exampleDoc.value "fit".toList "energy".toList = some " 16.0, \"a # b\"17.0,18".toList := by decide +kernel
example : exampleDoc.value "fit.other".toList "flag".toList = some "1=2".toList := by decide +kernel
example : exampleDoc.value "fit.other".toList "energy".toList = none := by decide +kernel

/-- C92, comments: a comment at the end of a line adds a zero character to the value. -/
theorem C92_trailing_comment_violated :
    let r := (read new (some "[A]\nk=1#one\n".toList)).2
    (readSection r "A".toList true).1.find? "k".toList = some ['1', '\x00'] := by decide +kernel

/-- C92, comments: a comment line after an entry adds a zero character to the value of the entry, and a comment line
following a section line makes a key of the previous section appear in the new one. -/
theorem C92_comment_line_violated :
    (readSection (read new (some "[A]\nk=1\n# a comment\n".toList)).2 "A".toList true).1 = [(['k'], ['1', '\x00'])] ∧
    (readSection (read new (some "[A]\nk=1\n[B]\n# a comment\n".toList)).2 "B".toList true).1 = [(['k'], ['\x00'])] := by
  constructor <;> decide +kernel

/-- A section line that is not `[name]` followed by text without brackets. -/
def BadHeader (l : Str) : Prop :=
  ∃ t, l = '[' :: t ∧ ¬ ∃ name note, t = name ++ ']' :: note ∧ name ≠ [] ∧
    (∀ c ∈ name, c ≠ '[' ∧ c ≠ ']') ∧ (∀ c ∈ note, c ≠ '[' ∧ c ≠ ']')

/-- A double quote is not closed before the end of the line or the comment. -/
def unmatched : Bool → Str → Bool
  | q, [] => q
  | q, c :: t =>
    if c = '"' then unmatched (!q) t
    else if !q && commentSign c then false
    else unmatched q t

/-- The lines that are rejected: `l` is the line without the surrounding blanks. -/
def BadLine (l : Str) : Prop := BadHeader l ∨ (l.head? ≠ some '[' ∧ unmatched false l = true)

theorem scan_unmatched (l : Str) (s : Scan) :
    (scan l s).quotes % 2 = 1 ↔ unmatched (decide (s.quotes % 2 = 1)) l = true := by
  induction l generalizing s with
  | nil => simp [scan, unmatched]
  | cons c t ih =>
    rw [scan, unmatched]
    by_cases hc : c = '"'
    · rw [if_pos hc, if_pos hc, ih]
      dsimp only
      have hpar : (!decide (s.quotes % 2 = 1)) = decide ((s.quotes + 1) % 2 = 1) := by
        rcases Nat.mod_two_eq_zero_or_one s.quotes with h0 | h0 <;> simp [h0] <;> omega
      rw [hpar]
    · rw [if_neg hc, if_neg hc]
      by_cases hq : s.quotes % 2 = 1
      · rw [if_pos hq, ih]; simp [hq]
      · rw [if_neg hq]
        by_cases h5 : c = '#' ∨ c = ';'
        · have h5' : commentSign c = true := by simpa [commentSign] using h5
          rw [if_pos h5]; simp [hq, h5']
        · have h5' : commentSign c = false := by simpa [commentSign] using h5
          rw [if_neg h5, ih]; simp [hq, h5']

theorem badHeader_iff (t : Str) :
    BadHeader ('[' :: t) ↔ '[' ∈ t ∨ t.count ']' ≠ 1 ∨ t.findIdx (· == ']') < 1 := by
  have hgood : (∃ name note, t = name ++ ']' :: note ∧ name ≠ [] ∧
      (∀ c ∈ name, c ≠ '[' ∧ c ≠ ']') ∧ (∀ c ∈ note, c ≠ '[' ∧ c ≠ ']')) ↔
      ('[' ∉ t ∧ t.count ']' = 1 ∧ ¬ t.findIdx (· == ']') < 1) := by
    constructor
    · rintro ⟨name, note, rfl, hne, h1, h2⟩
      refine ⟨?_, ?_, ?_⟩
      · intro hc
        rcases List.mem_append.1 hc with hc | hc
        · exact (h1 _ hc).1 rfl
        · rcases List.mem_cons.1 hc with hc | hc
          · revert hc; decide
          · exact (h2 _ hc).1 rfl
      · rw [List.count_append, List.count_cons]
        have a1 : name.count ']' = 0 := List.count_eq_zero.2 (fun hc => (h1 _ hc).2 rfl)
        have a2 : note.count ']' = 0 := List.count_eq_zero.2 (fun hc => (h2 _ hc).2 rfl)
        simp [a1, a2]
      · obtain ⟨c, n, rfl⟩ := List.exists_cons_of_ne_nil hne
        rw [List.cons_append, List.findIdx_cons]
        have : (c == ']') = false := by simpa using (h1 c (List.mem_cons_self ..)).2
        simp [this]
    · rintro ⟨h1, h2, h3⟩
      have hmem : ']' ∈ t := by
        rw [← List.count_pos_iff]; omega
      obtain ⟨name, note, rfl, hn⟩ := List.append_of_mem hmem |>.elim fun a ⟨b, hab⟩ =>
        (⟨a, b, hab, trivial⟩ : ∃ a b, t = a ++ ']' :: b ∧ True)
      rw [List.count_append, List.count_cons] at h2
      simp only [BEq.rfl, if_true] at h2
      have a1 : ']' ∉ name := List.count_eq_zero.1 (by omega)
      have a2 : ']' ∉ note := List.count_eq_zero.1 (by omega)
      refine ⟨name, note, rfl, ?_, ?_, ?_⟩
      · rintro rfl
        apply h3; simp [List.findIdx_cons]
      · intro c hc
        exact ⟨fun h => h1 (h ▸ List.mem_append_left _ hc), fun h => a1 (h ▸ hc)⟩
      · intro c hc
        exact ⟨fun h => h1 (h ▸ List.mem_append_right _ (List.mem_cons_of_mem _ hc)), fun h => a2 (h ▸ hc)⟩
  have : BadHeader ('[' :: t) ↔ ¬ ('[' ∉ t ∧ t.count ']' = 1 ∧ ¬ t.findIdx (· == ']') < 1) := by
    rw [← hgood]
    constructor
    · rintro ⟨t', ht, h⟩
      cases ht; exact h
    · intro h; exact ⟨t, rfl, h⟩
  rw [this]
  tauto

theorem readLine_bad (st : State) (l : Str) :
    (BadLine (trim l) → (readLine st l).1 = .throw .invalidArgument) ∧
    (¬ BadLine (trim l) → (readLine st l).1 = .ok ()) := by
  unfold readLine
  cases hl : trim l with
  | nil =>
    refine ⟨?_, fun _ => rfl⟩
    rintro (⟨t, h, -⟩ | ⟨-, h⟩)
    · cases h
    · simp [unmatched] at h
  | cons c t =>
    dsimp only
    by_cases hc : c = '['
    · subst hc
      rw [if_pos rfl]
      have hbl : BadLine ('[' :: t) ↔ BadHeader ('[' :: t) := by simp [BadLine]
      rw [hbl, badHeader_iff, header]
      by_cases h1 : '[' ∈ t
      · simp [h1]
      · by_cases h2 : t.count ']' ≠ 1 ∨ t.findIdx (· == ']') < 1
        · rw [if_neg h1, if_pos h2]
          exact ⟨fun _ => rfl, fun h => absurd (Or.inr h2) h⟩
        · rw [if_neg h1, if_neg h2]
          refine ⟨fun h => ?_, fun _ => rfl⟩
          rcases h with h | h
          · exact absurd h h1
          · exact absurd h h2
    · rw [if_neg hc, body]
      have hbl : BadLine (c :: t) ↔ unmatched false (c :: t) = true := by
        unfold BadLine
        constructor
        · rintro (⟨t', h, -⟩ | ⟨-, h⟩)
          · cases h; exact absurd rfl hc
          · exact h
        · intro h
          exact Or.inr ⟨by simpa using hc, h⟩
      have := scan_unmatched (c :: t) { out := [], quotes := 0, eq := 0 }
      simp only [Nat.zero_mod, zero_ne_one, decide_false] at this
      rw [hbl, ← this]
      dsimp only
      by_cases hq : (scan (c :: t) { out := [], quotes := 0, eq := 0 }).quotes % 2 = 1
      · rw [if_pos hq]; exact ⟨fun _ => rfl, fun h => absurd hq h⟩
      · rw [if_neg hq]
        refine ⟨fun h => absurd h hq, fun _ => ?_⟩
        split_ifs <;> rfl

theorem readLines_bad (ls : List Str) (st : State) :
    ((∃ l ∈ ls, BadLine (trim l)) → (readLines st ls).1 = .throw .invalidArgument) ∧
    ((¬ ∃ l ∈ ls, BadLine (trim l)) → (readLines st ls).1 = .ok ()) := by
  induction ls generalizing st with
  | nil => exact ⟨fun ⟨_, h, _⟩ => absurd h (by simp), fun _ => rfl⟩
  | cons l t ih =>
    obtain ⟨h1, h2⟩ := readLine_bad st l
    rw [readLines]
    by_cases hb : BadLine (trim l)
    · have := h1 hb
      refine ⟨fun _ => ?_, fun h => absurd ⟨l, List.mem_cons_self .., hb⟩ h⟩
      cases hr : readLine st l with
      | mk o s => rw [hr] at this; dsimp only at this; subst this; rfl
    · have := h2 hb
      have heq : (∃ x ∈ l :: t, BadLine (trim x)) ↔ ∃ x ∈ t, BadLine (trim x) := by simp [hb]
      rw [heq]
      cases hr : readLine st l with
      | mk o s =>
        rw [hr] at this
        dsimp only at this
        subst this
        exact ih s

/-- C35, errors: a file is rejected with `invalid_argument` iff one of its lines is a section line that is not `[name]`
or has an unclosed double quote; any other file that can be opened is accepted. -/
theorem C35_rejected_iff (r : Reader) (text : Str) :
    ((∃ l ∈ lines text, BadLine (trim l)) → (read r (some text)).1 = .throw .invalidArgument) ∧
    ((¬ ∃ l ∈ lines text, BadLine (trim l)) → (read r (some text)).1 = .ok ()) :=
  readLines_bad (lines text) _

/-- C35, errors: an inaccessible file leaves the reader as it was. -/
theorem C35_missing_file (r : Reader) : read r none = (.throw .ioFailure, r) := rfl

example : (read new (some "[A\nk=1\n".toList)).1 = .throw .invalidArgument := by decide +kernel
example : (read new (some "[A]\nk=\"1\n".toList)).1 = .throw .invalidArgument := by decide +kernel
example : (read new (some "[A]\nk=1 # \"\n".toList)).1 = .ok () := by decide +kernel

/-! ## C36 -/

/-- C36 is false: the value of a key missing from the second file is the one of the first file. -/
theorem C36_forgets_violated :
    ∃ d e : Doc, d.WF ∧ e.WF ∧ ∃ name key,
      (readSection (read (read new (some d.text)).2 (some e.text)).2 name true).1.find? key ≠ e.value name key ∧
      e.value name key = none := by
  refine ⟨exampleDoc, { sections := [], tail := [] }, exampleDoc_wf, ⟨by simp, by simp⟩, "fit.other".toList,
    "flag".toList, ?_, rfl⟩
  decide +kernel

/-- C36, the part that holds: after reading a document with a reader in any state, the sections are those of the
document, every key it writes has the value it writes, and any other key keeps the value it had. -/
theorem C36_reread_partial (r : Reader) {d : Doc} (h : d.WF) :
    ∃ r', read r (some d.text) = (.ok (), r') ∧ getSections r' = d.sections.map Section.name ∧
      ∀ name key, (readSection r' name true).1.find? key =
        (d.value name key).or ((readSection r name true).1.find? key) := by
  obtain ⟨r', h1, h2, h3⟩ := read_doc h r
  refine ⟨r', h1, h2, fun n k => ?_⟩
  rw [readSection_lookup, readSection_lookup, h3]

/-! ## C37 -/

theorem agreeing_lt {s t : Str} (h : s.length = t.length) : agreeing s t < t.length ↔ s.upper ≠ t := by
  induction s generalizing t with
  | nil =>
    cases t with
    | nil => simp [agreeing, Str.upper]
    | cons d t => simp at h
  | cons c s ih =>
    cases t with
    | nil => simp at h
    | cons d t =>
      simp only [List.length_cons, Nat.add_right_cancel_iff] at h
      rw [agreeing]
      by_cases hc : c.toUpper = d
      · rw [if_pos hc]
        have := ih h
        simp only [List.length_cons, Nat.add_lt_add_iff_right]
        rw [this]
        simp [Str.upper, hc]
      · rw [if_neg hc]
        simp [Str.upper, hc]

theorem search_spec {input : Str} {ss : List Str} {s : Str} (h : search input ss = some s) :
    s ∈ ss ∧ s.length = input.length ∧ s.upper ≠ input := by
  induction ss with
  | nil => cases h
  | cons a t ih =>
    rw [search] at h
    split at h
    · next hc =>
      cases h
      exact ⟨List.mem_cons_self .., hc.1, (agreeing_lt hc.1).1 hc.2⟩
    · obtain ⟨h1, h2, h3⟩ := ih h
      exact ⟨List.mem_cons_of_mem _ h1, h2, h3⟩

theorem search_none {input : Str} {ss : List Str} (h : search input ss = none) :
    ∀ s ∈ ss, s.length = input.length → s.upper = input := by
  induction ss with
  | nil => simp
  | cons a t ih =>
    rw [search] at h
    split at h
    · cases h
    · next hc =>
      intro s hs hl
      rcases List.mem_cons.1 hs with rfl | hs
      · by_contra hne
        exact hc ⟨hl, (agreeing_lt hl).2 hne⟩
      · exact ih h s hs hl

/-- C37 is false: a section spelled with other capitals is not found. -/
theorem C37_found_violated :
    let r := (read new (some "[Fisx]\nk=1\n".toList)).2
    Str.upper "Fisx".toList = Str.upper "fisx".toList ∧ (readSection r "Fisx".toList true).1 = [(['k'], ['1'])] ∧
    (readSection r "fisx".toList false).1 = [] := by decide +kernel

/-- C37 is false: the content of another section is returned for a section that does not exist, or has no keys. -/
theorem C37_other_section_violated :
    (readSection (read new (some "[abcd]\nk=1\n".toList)).2 "fisx".toList false).1 = [(['k'], ['1'])] ∧
    (readSection (read new (some "[fisx]\n[abcd]\nk=1\n".toList)).2 "fisx".toList false).1 = [(['k'], ['1'])] := by
  constructor <;> decide +kernel

/-- C37, what the search really does, for every reader: when no section with exactly the requested name has keys, the
content is empty if all the sections with a name of the same length equal the requested one up to case; otherwise it
is the content of a section whose name has the same length and does **not** equal the requested one. -/
theorem C37_search_inverted_violated (r : Reader) (key : Str) (hx : r.contents.find? key = none) :
    ((∀ s ∈ getSections r, s.length = key.length → s.upper = key.upper) → (readSection r key false).1 = []) ∧
    ((∃ s ∈ getSections r, s.length = key.length ∧ s.upper ≠ key.upper) →
      ∃ s ∈ getSections r, s.length = key.length ∧ s.upper ≠ key.upper ∧
        (readSection r key false).1 = (readSection r s true).1) := by
  have hlen : key.upper.length = key.length := by simp [Str.upper]
  have hres : readSection r key false = (match search key.upper r.sections with
      | some s => (entry r.contents s, { r with contents := r.contents.insert s (entry r.contents s) })
      | none => ([], r)) := by
    unfold readSection
    rw [hx]
    rfl
  rw [hres]
  constructor
  · intro h
    cases hs : search key.upper r.sections with
    | none => rfl
    | some s =>
      obtain ⟨h1, h2, h3⟩ := search_spec hs
      exact absurd (h s h1 (by omega)) h3
  · rintro ⟨s, h1, h2, h3⟩
    cases hs : search key.upper r.sections with
    | none => exact absurd (search_none hs s h1 (by omega)) h3
    | some s' =>
      obtain ⟨a1, a2, a3⟩ := search_spec hs
      refine ⟨s', a1, by omega, a3, ?_⟩
      dsimp only
      unfold readSection entry
      cases r.contents.find? s' <;> rfl

/-- C37, the part that holds: a section for which the document writes some key is found under its exact name, with or
without case sensitivity, and its content is what the document writes. -/
theorem C37_exact_partial {d : Doc} (h : d.WF) (name : Str) (hk : ∃ key, d.value name key ≠ none) (flag : Bool) :
    ∃ r, read new (some d.text) = (.ok (), r) ∧
      ∀ key, (readSection r name flag).1.find? key = d.value name key := by
  obtain ⟨r, h1, -, h3⟩ := C35_faithful h
  refine ⟨r, h1, fun key => ?_⟩
  rw [← h3]
  obtain ⟨k, hk⟩ := hk
  have h3k := h3 name k
  have : ∃ m, r.contents.find? name = some m := by
    cases hc : r.contents.find? name with
    | some m => exact ⟨m, rfl⟩
    | none =>
      exfalso
      apply hk
      rw [← h3k, readSection, hc]
      rfl
  obtain ⟨m, hm⟩ := this
  unfold readSection
  rw [hm]

example : exampleDoc.value "fit".toList "flag".toList ≠ none := by decide +kernel

/-- C37, reading is not modifying: looking up a section never changes what case-sensitive look-ups answer. -/
theorem C37_read_only (r : Reader) (key : Str) (flag : Bool) (name : Str) :
    getSections (readSection r key flag).2 = getSections r ∧
    (readSection (readSection r key flag).2 name true).1 = (readSection r name true).1 := by
  have : (readSection r key flag).2 = r ∨
      ∃ s, (readSection r key flag).2 = { r with contents := r.contents.insert s (entry r.contents s) } := by
    unfold readSection
    cases r.contents.find? key with
    | some m => exact Or.inl rfl
    | none =>
      cases flag with
      | true => exact Or.inl rfl
      | false =>
        dsimp only
        cases search key.upper r.sections with
        | none => exact Or.inl rfl
        | some s => exact Or.inr ⟨s, rfl⟩
  rcases this with h | ⟨s, h⟩
  · rw [h]; exact ⟨rfl, rfl⟩
  · rw [h]
    refine ⟨rfl, ?_⟩
    unfold readSection
    dsimp only
    rw [SMap.find?_insert]
    by_cases hs : s = name
    · subst hs
      simp only [if_true, entry]
      cases r.contents.find? s <;> rfl
    · rw [if_neg hs]
      cases r.contents.find? name <;> rfl

/-! ## C38 -/

theorem upper_take (s : Str) (n : Nat) : s.upper.take n = Str.upper (s.take n) := by
  simp [Str.upper, List.map_take]

theorem upper_length (s : Str) : s.upper.length = s.length := by simp [Str.upper]

/-- C38 without case sensitivity: the sections whose name is the parent (up to case), a dot and anything, in file
order. -/
theorem C38_case_insensitive (r : Reader) {parent : Str} (hp : parent ≠ []) :
    (getSubsections r parent false).Sublist (getSections r) ∧
    ∀ s, s ∈ getSubsections r parent false ↔
      s ∈ getSections r ∧ ∃ head tail, s = head ++ '.' :: tail ∧ head.upper = parent.upper := by
  have hl : ¬ parent.length = 0 := by simpa using hp
  unfold getSubsections
  rw [if_neg hl, if_neg (by simp)]
  refine ⟨List.filter_sublist, fun s => ?_⟩
  rw [List.mem_filter]
  refine and_congr_right (fun _ => ?_)
  have hup : (parent ++ ['.']).upper = parent.upper ++ ['.'] := by
    simp only [Str.upper, List.map_append, List.map_cons, List.map_nil]
    rfl
  rw [decide_eq_true_iff, hup]
  simp only [List.length_append, List.length_singleton, upper_length]
  constructor
  · rintro ⟨h1, h2⟩
    refine ⟨s.take parent.length, s.drop (parent.length + 1), ?_, ?_⟩
    · have h3 : s[parent.length]? = some '.' := by
        have h4 : (s.upper.take (parent.length + 1))[parent.length]? = some '.' := by
          rw [h2]; simp [upper_length]
        rw [List.getElem?_take_of_lt (by omega)] at h4
        simp only [Str.upper, List.getElem?_map, Option.map_eq_some_iff] at h4
        obtain ⟨c, hc, hc2⟩ := h4
        rw [hc]
        congr 1
        by_contra hne
        unfold Char.toUpper at hc2
        split at hc2
        · next hlow =>
          have hv := congrArg (fun x : Char => x.val) hc2
          dsimp only at hv
          have h1 := hlow.1
          have h2 := hlow.2
          have hv' := congrArg UInt32.toNat hv
          rw [UInt32.toNat_add] at hv'
          have h1' : 97 ≤ c.val.toNat := h1
          have h2' : c.val.toNat ≤ 122 := h2
          have e1 : ('A'.val - 'a'.val : UInt32).toNat = 4294967264 := by decide
          have e2 : ('.' : Char).val.toNat = 46 := by decide
          rw [e1, e2] at hv'
          omega
        · exact hne hc2
      have h5 : parent.length < s.length := by omega
      rw [List.getElem?_eq_getElem h5, Option.some_inj] at h3
      conv_lhs => rw [← List.take_append_drop parent.length s, List.drop_eq_getElem_cons h5, h3]
    · have h4 := congrArg (List.take parent.length) h2
      rw [List.take_take, min_eq_left (by omega), upper_take] at h4
      rw [h4]
      rw [List.take_append_of_le_length (by rw [upper_length]), ← upper_length parent, List.take_length]
  · rintro ⟨head, tail, rfl, h⟩
    have hh : head.length = parent.length := by rw [← upper_length head, h, upper_length]
    refine ⟨by simp; omega, ?_⟩
    rw [upper_take, ← hh]
    have : (head ++ '.' :: tail).take (head.length + 1) = head ++ ['.'] := by
      rw [List.take_append, List.take_of_length_le (by omega)]
      simp
    rw [this, ← h]
    simp only [Str.upper, List.map_append, List.map_cons, List.map_nil]
    rfl

/-- C38: an empty parent gives all the sections. -/
theorem C38_all (r : Reader) (flag : Bool) : getSubsections r [] flag = getSections r := rfl

/-- C93 is false with case sensitivity: the subsections are not found. -/
theorem C93_case_sensitive_violated :
    let r := (read new (some "[Materials.Steel]\nk=1\n".toList)).2
    getSections r = ["Materials.Steel".toList] ∧ getSubsections r "Materials".toList true = [] ∧
    getSubsections r "Materials".toList false = ["Materials.Steel".toList] := by decide +kernel

/-- C93 with case sensitivity, what holds: every section returned has a name starting with the parent and a dot; the
ones returned are exactly those with nothing after the dot. -/
theorem C93_case_sensitive_partial (r : Reader) {parent : Str} (hp : parent ≠ []) :
    (getSubsections r parent true).Sublist (getSections r) ∧
    ∀ s, s ∈ getSubsections r parent true ↔ s ∈ getSections r ∧ s = parent ++ ['.'] := by
  have hl : ¬ parent.length = 0 := by simpa using hp
  unfold getSubsections
  rw [if_neg hl, if_pos rfl]
  refine ⟨List.filter_sublist, fun s => ?_⟩
  rw [List.mem_filter, decide_eq_true_iff]
  refine and_congr_right (fun _ => ?_)
  constructor
  · rintro ⟨h1, h2⟩
    rw [← h1, List.take_length] at h2
    exact h2
  · rintro rfl
    exact ⟨rfl, List.take_length⟩

example : getSubsections { sections := ["a.".toList, "a.b".toList, "A.c".toList, "ab.c".toList], contents := [] }
    "a".toList false = ["a.".toList, "a.b".toList, "A.c".toList] := by decide +kernel

end Ini
end Fisx
