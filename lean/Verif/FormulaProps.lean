import Verif.Formula
import Mathlib.Tactic.NormNum
import Mathlib.Data.List.Count
import Mathlib.Data.List.Infix
import Mathlib.Data.List.TakeWhile
import Mathlib.Data.Nat.Cast.Order.Field

set_option linter.unusedSectionVars false
set_option linter.unusedSimpArgs false

/-!
# C27: chemical formulas are parsed according to their grammar

The grammar is the inductive type `Fm`: a sequence of element symbols with optional decimal numbers and of
parenthesised groups with optional decimal numbers. `Fm.text` is the string, `Fm.atoms` the number of atoms of an
element.
-/

namespace Fisx
namespace Formula

variable {K : Type} [Field K] [LinearOrder K] [IsStrictOrderedRing K]

/-! ### Specification -/

/-- A decimal number: digits, and optionally a point and more digits. -/
structure Num where
  ip : List Char
  dot : Bool
  fp : List Char
deriving DecidableEq

/-- There is at least one digit; no digits after a missing point. -/
def Num.Valid (n : Num) : Prop :=
  (∀ c ∈ n.ip, c.isDigit = true) ∧ (∀ c ∈ n.fp, c.isDigit = true) ∧ (n.dot = false → n.fp = []) ∧ (n.ip ≠ [] ∨ n.fp ≠ [])

instance (n : Num) : Decidable n.Valid := by unfold Num.Valid; infer_instance

/-- How it is written. -/
def Num.text (n : Num) : List Char := n.ip ++ (if n.dot then '.' :: n.fp else [])

/-- The number. -/
def Num.value (n : Num) : K :=
  (Nat.ofDigitChars 10 n.ip 0 : K) + (Nat.ofDigitChars 10 n.fp 0 : K) / 10 ^ n.fp.length

/-- A missing number is one. -/
def optText : Option Num → List Char
  | none => []
  | some n => n.text

/-- A missing number is one. -/
def optValue : Option Num → K
  | none => 1
  | some n => n.value

/-- Chemical formulas. -/
inductive Fm
  | nil
  | atom (sym : List Char) (num : Option Num) (rest : Fm)
  | group (body : Fm) (num : Option Num) (rest : Fm)
deriving DecidableEq

namespace Fm

/-- The string of a formula. -/
def text : Fm → List Char
  | nil => []
  | atom sym num rest => sym ++ optText num ++ text rest
  | group body num rest => '(' :: (text body ++ ')' :: (optText num ++ text rest))

/-- The number of atoms of element `x`. -/
def atoms (x : List Char) : Fm → K
  | nil => 0
  | atom sym num rest => (if sym = x then optValue num else 0) + atoms x rest
  | group body num rest => optValue num * atoms x body + atoms x rest

/-- The element occurs in the formula. -/
def Occurs (x : List Char) : Fm → Prop
  | nil => False
  | atom sym _ rest => sym = x ∨ Occurs x rest
  | group body _ rest => Occurs x body ∨ Occurs x rest

/-- Symbols are an upper case letter followed by lower case letters, numbers are decimal numbers, groups are not
empty. -/
def WF : Fm → Prop
  | nil => True
  | atom sym num rest =>
    (∃ c l, sym = c :: l ∧ c.isUpper = true ∧ ∀ d ∈ l, d.isLower = true) ∧ (∀ n, num = some n → n.Valid) ∧ WF rest
  | group body num rest => body ≠ nil ∧ WF body ∧ (∀ n, num = some n → n.Valid) ∧ WF rest

/-- The restriction under which the parser is right about groups: a group has an explicit number, unless it ends the
string, and what follows a group and its number is not a single character. `tail` is the text after the formula. -/
def Served : Fm → List Char → Prop
  | nil, _ => True
  | atom _ _ rest, tail => Served rest tail
  | group body num rest, tail =>
    (num = none → text rest ++ tail = []) ∧ (text rest ++ tail).length ≠ 1
      ∧ Served body (')' :: (optText num ++ (text rest ++ tail))) ∧ Served rest tail

/-- The numbers of atoms of each group (times the number of the group) are written exactly by `toString`. -/
def Exact (sh : K → List Char) : Fm → Prop
  | nil => True
  | atom _ _ rest => Exact sh rest
  | group body num rest =>
    (∀ x, Occurs x body → ∃ n : Num, n.Valid ∧ sh (atoms x body * optValue num) = n.text
      ∧ n.value = (atoms x body * optValue num : K)) ∧ Exact sh body ∧ Exact sh rest

end Fm

/-- `m` is the number of atoms of each element of `f`. -/
def Counts (f : Fm) (m : SMap String K) : Prop :=
  m.Sorted ∧ ∀ x, (Fm.Occurs x f → m.find? (String.ofList x) = some (Fm.atoms x f))
    ∧ (¬ Fm.Occurs x f → m.find? (String.ofList x) = none)

/-! ### Numbers -/

theorem natOf_eq (s : List Char) : natOf s = Nat.ofDigitChars 10 s 0 := by
  rw [Nat.ofDigitChars_eq_foldl]; rfl

theorem takeWhile_append_all {p : Char → Bool} {a b : List Char} (ha : ∀ c ∈ a, p c = true)
    (hb : ∀ c l, b = c :: l → p c = false) : (a ++ b).takeWhile p = a ∧ (a ++ b).dropWhile p = b := by
  induction a with
  | nil =>
    cases b with
    | nil => simp
    | cons c l => have := hb c l rfl; simp [this]
  | cons x t ih =>
    have hx := ha x (by simp)
    have := ih (fun c hc => ha c (List.mem_cons_of_mem _ hc))
    simp [hx, this]

theorem unsigned_text {n : Num} (h : n.Valid) : unsigned n.text = some (n.value : K) := by
  obtain ⟨h1, h2, h3, h4⟩ := h
  have hd : '.'.isDigit = false := by decide
  cases hdot : n.dot with
  | false =>
    have hfp := h3 hdot
    have hip : n.ip ≠ [] := by rcases h4 with h | h; exact h; exact absurd hfp h
    have hw := takeWhile_append_all (p := Char.isDigit) (a := n.ip) (b := []) h1 (by simp)
    have htext : n.text = n.ip ++ [] := by simp [Num.text, hdot]
    unfold unsigned
    rw [htext, hw.1, hw.2]
    simp only [hip, false_and, if_false]
    simp [Num.value, natOf_eq, hfp]
  | true =>
    have hw := takeWhile_append_all (p := Char.isDigit) (a := n.ip) (b := '.' :: n.fp) h1
      (by intro c l hcl; injection hcl with hc _; rw [← hc]; exact hd)
    have hw2 := takeWhile_append_all (p := Char.isDigit) (a := n.fp) (b := []) h2 (by simp)
    rw [List.append_nil] at hw2
    have htext : n.text = n.ip ++ ('.' :: n.fp) := by simp [Num.text, hdot]
    have : ¬ (n.ip = [] ∧ n.fp = []) := by rintro ⟨a, b⟩; rcases h4 with h | h; exact h a; exact h b
    unfold unsigned
    rw [htext, hw.1, hw.2]
    simp only [hw2.1, this, if_false]
    simp [Num.value, natOf_eq]

/-- What a number is made of. -/
def numChar (c : Char) : Bool := c.isDigit || c == '.'

theorem text_numChar {n : Num} (h : n.Valid) : ∀ c ∈ n.text, numChar c = true := by
  intro c hc
  unfold Num.text at hc
  rcases List.mem_append.1 hc with hc | hc
  · simp [numChar, h.1 c hc]
  · split at hc
    · rcases List.mem_cons.1 hc with hc | hc
      · simp [numChar, hc]
      · simp [numChar, h.2.1 c hc]
    · simp at hc

theorem text_ne_nil {n : Num} (h : n.Valid) : n.text ≠ [] := by
  obtain ⟨h1, h2, h3, h4⟩ := h
  unfold Num.text
  cases hdot : n.dot with
  | false =>
    rcases h4 with h | h
    · simp [h]
    · exact absurd (h3 hdot) h
  | true => simp

theorem numChar_props {c : Char} (h : numChar c = true) :
    c.isUpper = false ∧ c.isLower = false ∧ c ≠ '(' ∧ c ≠ ')' ∧ c ≠ ' ' ∧ c ≠ '-' ∧ c ≠ '+' := by
  unfold numChar at h
  rw [Bool.or_eq_true] at h
  rcases h with h | h
  · simp only [Char.isDigit, ge_iff_le, Bool.and_eq_true, decide_eq_true_eq, Char.isUpper, Char.isLower] at *
    have e : ∀ d : Char, c = d → c.val = d.val := by intro d hd; rw [hd]
    obtain ⟨ha, hb⟩ := h
    have ha' := UInt32.le_iff_toNat_le.1 ha
    have hb' := UInt32.le_iff_toNat_le.1 hb
    simp only [Char.reduceVal, UInt32.reduceToNat] at ha' hb'
    refine ⟨?_, ?_, ?_, ?_, ?_, ?_, ?_⟩
    · simp only [Bool.and_eq_false_imp, decide_eq_true_eq, decide_eq_false_iff_not, UInt32.le_iff_toNat_le,
        Char.reduceVal, UInt32.reduceToNat]
      omega
    · simp only [Bool.and_eq_false_imp, decide_eq_true_eq, decide_eq_false_iff_not, UInt32.le_iff_toNat_le,
        Char.reduceVal, UInt32.reduceToNat]
      omega
    all_goals
      intro hc; subst hc; revert ha' hb'; decide
  · have : c = '.' := by simpa using h
    subst this
    decide

theorem stringToDouble_text {n : Num} (h : n.Valid) : stringToDouble n.text = some (n.value : K) := by
  have h1 := unsigned_text (K := K) h
  have h2 := text_numChar h
  cases ht : n.text with
  | nil => exact absurd ht (text_ne_nil h)
  | cons c l =>
    rw [ht] at h1 h2
    have h3 := numChar_props (h2 c (by simp))
    unfold stringToDouble
    split
    · rename_i r he; injection he with he _; exact absurd he h3.2.2.2.2.2.1
    · rename_i r he; injection he with he _; exact absurd he h3.2.2.2.2.2.2
    · exact h1

/-! ### Formulas without groups -/

theorem flatLoop_append (a b : List Char) (st : Scan K) :
    flatLoop (a ++ b) st = (flatLoop a st).bind (flatLoop b) := by
  induction a generalizing st with
  | nil => simp [flatLoop]
  | cons c t ih =>
    simp only [List.cons_append, flatLoop]
    cases flatChar st c with
    | none => rfl
    | some st' => exact ih st'

theorem isLower_not_upper {c : Char} (h : c.isLower = true) : c.isUpper = false := by
  simp only [Char.isLower, ge_iff_le, Bool.and_eq_true, decide_eq_true_eq, Char.isUpper,
    UInt32.le_iff_toNat_le, Char.reduceVal, UInt32.reduceToNat, Bool.and_eq_false_imp, decide_eq_false_iff_not] at *
  omega

theorem flatLoop_lower (l : List Char) (st : Scan K) (h : ∀ c ∈ l, c.isLower = true) :
    flatLoop l st = some { st with lastKey := st.lastKey ++ l } := by
  induction l generalizing st with
  | nil => simp [flatLoop]
  | cons c t ih =>
    have hc := h c (by simp)
    have hu := isLower_not_upper hc
    unfold flatLoop flatChar
    rw [if_neg (by simp [hu]), if_pos hc]
    simp only
    rw [ih _ (fun d hd => h d (List.mem_cons_of_mem _ hd))]
    simp

theorem flatLoop_num (t : List Char) (st : Scan K) (h : ∀ c ∈ t, numChar c = true) (ht : t ≠ []) :
    flatLoop t st = some { st with lastNumber := st.lastNumber ++ t, parsingKey := false } := by
  induction t generalizing st with
  | nil => exact absurd rfl ht
  | cons c l ih =>
    have hc := numChar_props (h c (by simp))
    unfold flatLoop flatChar
    rw [if_neg (by simp [hc.1]), if_neg (by simp [hc.2.1])]
    simp only
    by_cases hl : l = []
    · subst hl; simp [flatLoop]
    · rw [ih _ (fun d hd => h d (List.mem_cons_of_mem _ hd)) hl]
      simp

/-- The atom being read is `sym` with number `num`. -/
def Pending (st : Scan K) (sym : List Char) (num : Option Num) : Prop :=
  st.lastKey = sym ∧ sym ≠ [] ∧ st.lastNumber = optText num ∧ st.parsingKey = num.isNone ∧ (∀ n, num = some n → n.Valid)

theorem pending_flush {st : Scan K} {sym num} (h : Pending st sym num) :
    flush st = some (st.found ++ [(sym, optValue num)]) := by
  obtain ⟨h1, h2, h3, h4, h5⟩ := h
  unfold flush
  rw [h1, if_neg h2, h3]
  cases num with
  | none => simp [optText, optValue]
  | some n =>
    have hv := h5 n rfl
    rw [if_neg (by simpa [optText] using text_ne_nil hv)]
    simp only [optText, stringToDouble_text (K := K) hv, optValue]

theorem pending_end {st : Scan K} {sym num} (h : Pending st sym num) :
    flatEnd st = some (st.found ++ [(sym, optValue num)]) := by
  obtain ⟨h1, h2, h3, h4, h5⟩ := h
  unfold flatEnd
  rw [h1, h3, h4]
  cases num with
  | none => simp [optValue]
  | some n => simp [optText, optValue, stringToDouble_text (K := K) (h5 n rfl)]

/-- The atoms of a formula without groups, in order. -/
def Fm.list : Fm → List (List Char × K)
  | .nil => []
  | .atom sym num rest => (sym, optValue num) :: Fm.list rest
  | .group _ _ rest => Fm.list rest

/-- No groups. -/
def Fm.Flat : Fm → Prop
  | .nil => True
  | .atom _ _ rest => Fm.Flat rest
  | .group _ _ _ => False

/-- One atom is read. -/
theorem flatLoop_atom {sym : List Char} {num : Option Num} {st : Scan K} {f : List (List Char × K)}
    (hs : ∃ c l, sym = c :: l ∧ c.isUpper = true ∧ ∀ d ∈ l, d.isLower = true) (hn : ∀ n, num = some n → n.Valid)
    (hf : flush st = some f) :
    ∃ st', flatLoop (sym ++ optText num) st = some st' ∧ Pending st' sym num ∧ st'.found = f := by
  obtain ⟨c, l, rfl, hc, hl⟩ := hs
  have h1 : flatLoop (c :: l) st
      = some { found := f, lastKey := c :: l, lastNumber := [], parsingKey := true } := by
    unfold flatLoop flatChar
    rw [if_pos hc, hf]
    simp only
    rw [flatLoop_lower _ _ hl]
    simp
  rw [flatLoop_append, h1]
  simp only [Option.bind_some]
  cases num with
  | none => exact ⟨_, rfl, ⟨rfl, by simp, rfl, rfl, by simp⟩, rfl⟩
  | some n =>
    have hv := hn n rfl
    refine ⟨_, flatLoop_num _ _ (text_numChar hv) (text_ne_nil hv), ⟨rfl, by simp, by simp [optText], rfl, ?_⟩, rfl⟩
    intro k hk; injection hk with hk; exact hk ▸ hv

theorem flatLoop_pending (f : Fm) (hflat : f.Flat) (hwf : f.WF) {st : Scan K} {sym num} (h : Pending st sym num) :
    ∃ st', flatLoop f.text st = some st' ∧ flatEnd st' = some (st.found ++ [(sym, optValue num)] ++ f.list) := by
  induction f generalizing st sym num with
  | nil => exact ⟨st, rfl, by rw [pending_end h]; simp [Fm.list]⟩
  | group _ _ _ => exact absurd hflat (by simp [Fm.Flat])
  | atom s n rest ih =>
    obtain ⟨st1, e1, p1, f1⟩ := flatLoop_atom hwf.1 hwf.2.1 (pending_flush h)
    obtain ⟨st2, e2, p2⟩ := ih hflat hwf.2.2 p1
    refine ⟨st2, ?_, ?_⟩
    · simp only [Fm.text]
      rw [flatLoop_append, e1]
      exact e2
    · rw [p2, f1]; simp [Fm.list]

theorem parseFlat_text (f : Fm) (hflat : f.Flat) (hwf : f.WF) :
    parseFlat f.text = (f.list.foldl addAtom [] : SMap String K) := by
  cases f with
  | nil => rfl
  | group _ _ _ => exact absurd hflat (by simp [Fm.Flat])
  | atom s n rest =>
    obtain ⟨st1, e1, p1, f1⟩ := flatLoop_atom
      (st := ({ found := [], lastKey := [], lastNumber := [], parsingKey := false } : Scan K)) hwf.1 hwf.2.1 rfl
    obtain ⟨st2, e2, p2⟩ := flatLoop_pending rest hflat hwf.2.2 p1
    have htot : flatLoop (Fm.atom s n rest).text
        ({ found := [], lastKey := [], lastNumber := [], parsingKey := false } : Scan K) = some st2 := by
      simp only [Fm.text]
      rw [flatLoop_append, e1]
      exact e2
    obtain ⟨c, l, rfl, hc, hl⟩ := hwf.1
    unfold parseFlat
    generalize hT : (Fm.atom (c :: l) n rest).text = T at *
    cases T with
    | nil => simp [Fm.text] at hT
    | cons c' l' =>
      have : c = c' := by simp only [Fm.text, List.cons_append] at hT; injection hT
      subst this
      simp only [hc, if_true, htot, p2, f1]
      simp [Fm.list]

theorem ofList_inj {a b : List Char} (h : String.ofList a = String.ofList b) : a = b := by
  have := congrArg String.toList h
  simpa using this

/-- Sum of the numbers of an element in a list of atoms. -/
def listSum (x : List Char) (l : List (List Char × K)) : K := (l.map (fun a => if a.1 = x then a.2 else 0)).sum

theorem addAtom_sorted {m : SMap String K} (h : m.Sorted) (a : List Char × K) : (addAtom m a).Sorted := by
  unfold addAtom
  split <;> exact SMap.insert_sorted h _ _

theorem addAtom_find (m : SMap String K) (a : List Char × K) (x : List Char) :
    (addAtom m a).find? (String.ofList x)
      = if a.1 = x then some ((m.find? (String.ofList x)).getD 0 + a.2) else m.find? (String.ofList x) := by
  unfold addAtom
  by_cases h : a.1 = x
  · subst h
    simp only [if_true]
    split
    · rename_i h; simp [h]
    · rename_i y h; simp [h]
  · have h' : ¬ String.ofList a.1 = String.ofList x := fun hh => h (ofList_inj hh)
    simp only [h, if_false]
    split <;> simp [h']

theorem foldl_addAtom (l : List (List Char × K)) (m : SMap String K) (hs : m.Sorted) :
    (l.foldl addAtom m).Sorted ∧ ∀ x, (l.foldl addAtom m).find? (String.ofList x)
      = if x ∈ l.map Prod.fst then some ((m.find? (String.ofList x)).getD 0 + listSum x l)
        else m.find? (String.ofList x) := by
  induction l generalizing m with
  | nil => simpa [listSum] using hs
  | cons a t ih =>
    obtain ⟨h1, h2⟩ := ih (addAtom m a) (addAtom_sorted hs a)
    refine ⟨h1, fun x => ?_⟩
    rw [List.foldl_cons, h2 x, addAtom_find]
    by_cases hx : a.1 = x
    · subst hx
      by_cases ht : a.1 ∈ t.map Prod.fst
      · simp [ht, listSum, add_assoc]
      · have : listSum a.1 t = 0 := by
          unfold listSum
          apply List.sum_eq_zero
          intro y hy
          obtain ⟨e, he, rfl⟩ := List.mem_map.1 hy
          have : e.1 ≠ a.1 := fun hh => ht (hh ▸ List.mem_map_of_mem (f := Prod.fst) he)
          simp [this]
        have h0 : listSum a.1 (a :: t) = a.2 := by
          have : listSum a.1 (a :: t) = a.2 + listSum a.1 t := by simp [listSum]
          rw [this]; simp [*]
        simp [ht, h0]
    · have hx' : ¬ x = a.1 := fun h => hx h.symm
      have : listSum x (a :: t) = listSum x t := by simp [listSum, hx]
      rw [this]
      by_cases ht : x ∈ t.map Prod.fst
      · simp only [ht, hx, if_true, if_false, List.map_cons, List.mem_cons, or_true]
      · simp only [ht, hx, hx', if_false, List.map_cons, List.mem_cons, or_false]

theorem flat_occurs (f : Fm) (hflat : f.Flat) (x : List Char) :
    Fm.Occurs x f ↔ x ∈ (f.list : List (List Char × K)).map Prod.fst := by
  induction f with
  | nil => simp [Fm.Occurs, Fm.list]
  | group _ _ _ => exact absurd hflat (by simp [Fm.Flat])
  | atom s n rest ih => simp only [Fm.Occurs, Fm.list, List.map_cons, List.mem_cons, ih hflat, eq_comm]

theorem flat_atoms (f : Fm) (hflat : f.Flat) (x : List Char) :
    (Fm.atoms x f : K) = listSum x f.list := by
  induction f with
  | nil => simp [Fm.atoms, Fm.list, listSum]
  | group _ _ _ => exact absurd hflat (by simp [Fm.Flat])
  | atom s n rest ih => simp [Fm.atoms, Fm.list, listSum, ih hflat]

theorem flat_counts (f : Fm) (hflat : f.Flat) : Counts f (f.list.foldl addAtom [] : SMap String K) := by
  obtain ⟨h1, h2⟩ := foldl_addAtom (f.list : List (List Char × K)) [] SMap.sorted_nil
  refine ⟨h1, fun x => ⟨fun hx => ?_, fun hx => ?_⟩⟩
  · rw [h2, if_pos ((flat_occurs f hflat x).1 hx), flat_atoms f hflat]; simp
  · rw [h2, if_neg (fun h => hx ((flat_occurs f hflat x).2 h))]; simp

/-! ### Groups -/

/-- Concatenation. -/
def Fm.append : Fm → Fm → Fm
  | .nil, h => h
  | .atom s n r, h => .atom s n (Fm.append r h)
  | .group b n r, h => .group b n (Fm.append r h)

/-- The number of groups. -/
def Fm.groups : Fm → Nat
  | .nil => 0
  | .atom _ _ r => Fm.groups r
  | .group b _ r => Fm.groups b + Fm.groups r + 1

theorem append_text (g h : Fm) : (g.append h).text = g.text ++ h.text := by
  induction g <;> simp_all [Fm.append, Fm.text]

theorem append_atoms (g h : Fm) (x) : ((g.append h).atoms x : K) = g.atoms x + h.atoms x := by
  induction g <;> simp_all [Fm.append, Fm.atoms, add_assoc]

theorem append_occurs (g h : Fm) (x) : (g.append h).Occurs x ↔ g.Occurs x ∨ h.Occurs x := by
  induction g <;> simp_all [Fm.append, Fm.Occurs, or_assoc]

theorem append_wf (g h : Fm) (hg : g.WF) (hh : h.WF) : (g.append h).WF := by
  induction g <;> simp_all [Fm.append, Fm.WF]

theorem append_served (g h : Fm) (hg : g.Flat) (t) (hh : h.Served t) : (g.append h).Served t := by
  induction g <;> simp_all [Fm.append, Fm.Served, Fm.Flat]

theorem append_exact (sh : K → List Char) (g h : Fm) (hg : g.Flat) (hh : h.Exact sh) : (g.append h).Exact sh := by
  induction g <;> simp_all [Fm.append, Fm.Exact, Fm.Flat]

theorem append_groups (g h : Fm) (hg : g.Flat) : (g.append h).groups = h.groups := by
  induction g <;> simp_all [Fm.append, Fm.groups, Fm.Flat]

theorem flat_iff_groups (f : Fm) : f.Flat ↔ f.groups = 0 := by
  induction f <;> simp_all [Fm.groups, Fm.Flat]

/-- The characters of symbols. -/
theorem sym_chars {sym : List Char}
    (hs : ∃ c l, sym = c :: l ∧ c.isUpper = true ∧ ∀ d ∈ l, d.isLower = true) :
    ∀ c ∈ sym, c.isUpper = true ∨ c.isLower = true := by
  obtain ⟨c, l, rfl, hc, hl⟩ := hs
  intro d hd
  rcases List.mem_cons.1 hd with h | h
  · exact Or.inl (h ▸ hc)
  · exact Or.inr (hl d h)

theorem letter_props {c : Char} (h : c.isUpper = true ∨ c.isLower = true) : c ≠ '(' ∧ c ≠ ')' ∧ c ≠ ' ' := by
  refine ⟨?_, ?_, ?_⟩ <;> (rintro rfl; revert h; decide)

theorem optText_chars {num : Option Num} (hn : ∀ n, num = some n → n.Valid) :
    ∀ c ∈ optText num, numChar c = true := by
  cases num with
  | none => simp [optText]
  | some n => exact text_numChar (hn n rfl)

theorem atom_chars {sym : List Char} {num : Option Num}
    (hs : ∃ c l, sym = c :: l ∧ c.isUpper = true ∧ ∀ d ∈ l, d.isLower = true) (hn : ∀ n, num = some n → n.Valid) :
    ∀ c ∈ sym ++ optText num, c ≠ '(' ∧ c ≠ ')' ∧ c ≠ ' ' := by
  intro c hc
  rcases List.mem_append.1 hc with h | h
  · exact letter_props (sym_chars hs c h)
  · have := numChar_props (optText_chars hn c h)
    exact ⟨this.2.2.1, this.2.2.2.1, this.2.2.2.2.1⟩

theorem text_no_space (f : Fm) (h : f.WF) : ' ' ∉ f.text := by
  induction f with
  | nil => simp [Fm.text]
  | atom s n r ih =>
    intro hc
    simp only [Fm.text] at hc
    rcases List.mem_append.1 hc with hc | hc
    · exact (atom_chars h.1 h.2.1 _ hc).2.2 rfl
    · exact ih h.2.2 hc
  | group b n r ih1 ih2 =>
    have hn : ' ' ∉ optText n := fun hc => (numChar_props (optText_chars h.2.2.1 _ hc)).2.2.2.2.1 rfl
    simp only [Fm.text, List.mem_cons, List.mem_append, not_or]
    exact ⟨by decide, ih1 h.2.1, by decide, hn, ih2 h.2.2.2⟩

theorem text_count (f : Fm) (h : f.WF) : f.text.count '(' = f.groups ∧ f.text.count ')' = f.groups := by
  induction f with
  | nil => simp [Fm.text, Fm.groups]
  | atom s n r ih =>
    have h1 : (s ++ optText n).count '(' = 0 :=
      List.count_eq_zero.2 (fun hc => (atom_chars h.1 h.2.1 _ hc).1 rfl)
    have h2 : (s ++ optText n).count ')' = 0 :=
      List.count_eq_zero.2 (fun hc => (atom_chars h.1 h.2.1 _ hc).2.1 rfl)
    simp only [Fm.text, Fm.groups]
    rw [List.count_append (l₁ := s ++ optText n), List.count_append (l₁ := s ++ optText n), h1, h2, (ih h.2.2).1,
      (ih h.2.2).2]
    simp
  | group b n r ih1 ih2 =>
    have hn : (optText n).count '(' = 0 :=
      List.count_eq_zero.2 (fun hc => (numChar_props (optText_chars h.2.2.1 _ hc)).2.2.1 rfl)
    have hn2 : (optText n).count ')' = 0 :=
      List.count_eq_zero.2 (fun hc => (numChar_props (optText_chars h.2.2.1 _ hc)).2.2.2.1 rfl)
    simp only [Fm.text, Fm.groups, List.count_cons, List.count_append, hn, hn2, (ih1 h.2.1).1, (ih1 h.2.1).2,
      (ih2 h.2.2.2).1, (ih2 h.2.2.2).2]
    simp
    omega

theorem text_head (f : Fm) (h : f.WF) : ∀ c l, f.text = c :: l → c.isUpper = true ∨ c = '(' := by
  intro c l hcl
  cases f with
  | nil => simp [Fm.text] at hcl
  | atom s n r =>
    obtain ⟨c', l', rfl, hc, hl⟩ := h.1
    simp only [Fm.text, List.cons_append] at hcl
    injection hcl with h1 _
    exact Or.inl (h1 ▸ hc)
  | group b n r =>
    simp only [Fm.text] at hcl
    injection hcl with h1 _
    exact Or.inr h1.symm

theorem text_eq_nil (f : Fm) (h : f.WF) (ht : f.text = []) : f = .nil := by
  cases f with
  | nil => rfl
  | atom s n r => obtain ⟨c', l', rfl, hc, hl⟩ := h.1; simp [Fm.text] at ht
  | group b n r => simp [Fm.text] at ht

theorem upper_props {c : Char} (h : c.isUpper = true ∨ c = '(') : c.isLower = false ∧ c.isDigit = false := by
  rcases h with h | h
  · simp only [Char.isLower, ge_iff_le, Bool.and_eq_true, decide_eq_true_eq, Char.isUpper, Char.isDigit,
      UInt32.le_iff_toNat_le, Char.reduceVal, UInt32.reduceToNat, Bool.and_eq_false_imp, decide_eq_false_iff_not] at *
    omega
  · subst h; decide

/-- The first group that is closed, and what replacing it by a formula without groups with the same atoms gives. -/
theorem first_group (sh : K → List Char) (f : Fm) (tail : List Char) (hf : ¬ f.Flat) (hwf : f.WF)
    (hsv : f.Served tail) (hex : f.Exact sh) :
    ∃ (pre : List Char) (body : Fm) (num : Option Num) (suf : List Char),
      f.text = pre ++ '(' :: (body.text ++ ')' :: (optText num ++ suf)) ∧ ')' ∉ pre
      ∧ body.Flat ∧ body.WF ∧ body ≠ .nil ∧ (num = none → suf ++ tail = []) ∧ (suf ++ tail).length ≠ 1
      ∧ (∀ n, num = some n → n.Valid) ∧ (∀ c l, suf = c :: l → stops c = true)
      ∧ (∀ x, body.Occurs x → ∃ n : Num, n.Valid ∧ sh (body.atoms x * optValue num) = n.text
          ∧ n.value = (body.atoms x * optValue num : K))
      ∧ ∀ g : Fm, g.Flat → g.WF → g ≠ .nil → (∀ x, g.Occurs x ↔ body.Occurs x)
          → (∀ x, (g.atoms x : K) = body.atoms x * optValue num) →
          ∃ f' : Fm, f'.text = pre ++ (g.text ++ suf) ∧ f'.WF ∧ f' ≠ .nil ∧ f'.Served tail ∧ f'.Exact sh
            ∧ (∀ x, f'.Occurs x ↔ f.Occurs x) ∧ (∀ x, (f'.atoms x : K) = f.atoms x) ∧ f.groups = f'.groups + 1 := by
  induction f generalizing tail with
  | nil => exact absurd trivial hf
  | atom s n r ih =>
    obtain ⟨pre, body, num, suf, h1, h2, h3, h4, h5, h6, h7, h8, h9, h10, h11⟩ := ih tail hf hwf.2.2 hsv hex
    refine ⟨s ++ optText n ++ pre, body, num, suf, ?_, ?_, h3, h4, h5, h6, h7, h8, h9, h10, ?_⟩
    · simp only [Fm.text]; rw [h1]; simp
    · intro hc
      rcases List.mem_append.1 hc with hc | hc
      · exact (atom_chars hwf.1 hwf.2.1 _ hc).2.1 rfl
      · exact h2 hc
    · intro g hg1 hg2 hg3 hg4 hg5
      obtain ⟨f', k1, k2, k3, k4, k5, k6, k7, k8⟩ := h11 g hg1 hg2 hg3 hg4 hg5
      refine ⟨.atom s n f', ?_, ⟨hwf.1, hwf.2.1, k2⟩, by simp, k4, k5, ?_, ?_, k8⟩
      · simp only [Fm.text]; rw [k1]; simp
      · intro x; simp [Fm.Occurs, k6]
      · intro x; simp [Fm.atoms, k7]
  | group b n r ih1 ih2 =>
    by_cases hb : b.Flat
    · refine ⟨[], b, n, r.text, ?_, by simp, hb, hwf.2.1, hwf.1, hsv.1, hsv.2.1, hwf.2.2.1, ?_, hex.1, ?_⟩
      · simp [Fm.text]
      · intro c l hcl
        rcases text_head r hwf.2.2.2 c l hcl with h | h
        · simp [stops, h]
        · simp [stops, h]
      · intro g hg1 hg2 hg3 hg4 hg5
        refine ⟨g.append r, ?_, append_wf _ _ hg2 hwf.2.2.2, ?_, append_served _ _ hg1 _ hsv.2.2.2,
          append_exact sh _ _ hg1 hex.2.2, ?_, ?_, ?_⟩
        · rw [append_text]; simp
        · intro hnil
          cases g with
          | nil => exact hg3 rfl
          | atom _ _ _ => simp [Fm.append] at hnil
          | group _ _ _ => simp [Fm.append] at hnil
        · intro x; rw [append_occurs, hg4]; rfl
        · intro x; rw [append_atoms, hg5, mul_comm]; rfl
        · rw [append_groups _ _ hg1]; simp [Fm.groups, (flat_iff_groups b).1 hb]
    · obtain ⟨pre, body, num, suf, h1, h2, h3, h4, h5, h6, h7, h8, h9, h10, h11⟩ :=
        ih1 _ hb hwf.2.1 hsv.2.2.1 hex.2.1
      refine ⟨'(' :: pre, body, num, suf ++ ')' :: (optText n ++ r.text), ?_, ?_, h3, h4, h5, ?_, ?_, h8, ?_, h10, ?_⟩
      · simp only [Fm.text]; rw [h1]; simp
      · simp only [List.mem_cons, not_or]; exact ⟨by decide, h2⟩
      · intro hnum; have := h6 hnum; simp at this
      · intro hl; apply h7; simpa using hl
      · intro c l hcl
        cases suf with
        | nil => simp only [List.nil_append] at hcl; injection hcl with hc _; rw [← hc]; decide
        | cons d l' => simp only [List.cons_append] at hcl; injection hcl with hc _; exact hc ▸ h9 d l' rfl
      · intro g hg1 hg2 hg3 hg4 hg5
        obtain ⟨f', k1, k2, k3, k4, k5, k6, k7, k8⟩ := h11 g hg1 hg2 hg3 hg4 hg5
        refine ⟨.group f' n r, ?_, ⟨k3, k2, hwf.2.2.1, hwf.2.2.2⟩, by simp, ⟨hsv.1, hsv.2.1, k4, hsv.2.2.2⟩,
          ⟨?_, k5, hex.2.2⟩, ?_, ?_, ?_⟩
        · simp only [Fm.text]; rw [k1]; simp
        · intro x hx
          rw [k7 x]
          exact hex.1 x ((k6 x).1 hx)
        · intro x; simp [Fm.Occurs, k6]
        · intro x; simp [Fm.atoms, k7]
        · simp only [Fm.groups]; omega

/-! ### The positions of the parentheses -/

theorem idxOf_first {a : Char} {pre post : List Char} (h : a ∉ pre) : (pre ++ a :: post).idxOf a = pre.length := by
  rw [List.idxOf_append_of_notMem h]; simp

theorem openPos_first {pre t post : List Char} (h1 : ')' ∉ pre) (h2 : ')' ∉ t) (h3 : '(' ∉ t) :
    openPos (pre ++ '(' :: (t ++ ')' :: post)) = pre.length := by
  have hidx : (pre ++ '(' :: (t ++ ')' :: post)).idxOf ')' = pre.length + 1 + t.length := by
    have : pre ++ '(' :: (t ++ ')' :: post) = (pre ++ '(' :: t) ++ ')' :: post := by simp
    rw [this, idxOf_first]
    · simp; omega
    · simp only [List.mem_append, List.mem_cons, not_or]; exact ⟨h1, by decide, h2⟩
  unfold openPos
  rw [hidx]
  split
  · set s := pre ++ '(' :: (t ++ ')' :: post) with hs
    set q : Nat → Bool := fun i => decide (s[i]? = some '(' ∧ i < pre.length + 1 + t.length) with hq
    have hlen : s.length = (pre.length + 1) + (t.length + 1 + post.length) := by simp [hs]; omega
    have hlast : ((List.range (t.length + 1 + post.length)).map (fun x => pre.length + 1 + x)).filter q = [] := by
      rw [List.filter_eq_nil_iff]
      intro i hi
      obtain ⟨j, hj, rfl⟩ := List.mem_map.1 hi
      simp only [hq, decide_eq_true_eq, not_and, not_lt]
      intro hget
      by_contra hlt
      have hjt : j < t.length := by omega
      have : s[pre.length + 1 + j]? = t[j]? := by
        rw [hs, List.getElem?_append_right (by omega)]
        have : pre.length + 1 + j - pre.length = j + 1 := by omega
        rw [this, List.getElem?_cons_succ, List.getElem?_append_left hjt]
      rw [this] at hget
      exact h3 (List.mem_of_getElem? hget)
    have hq1 : q pre.length = true := by
      simp only [hq, decide_eq_true_eq]
      refine ⟨?_, by omega⟩
      rw [hs, List.getElem?_append_right (le_refl _)]
      simp
    rw [hlen, List.range_add, List.filter_append, hlast, List.append_nil, List.range_succ, List.filter_append]
    simp [hq1, List.getLastD_concat]
  · rename_i hc
    apply idxOf_first
    intro hmem
    apply hc
    have : 0 < pre.count '(' := List.count_pos_iff.2 hmem
    simp only [List.count_append, List.count_cons]
    simp
    omega

theorem inner_first {pre t post : List Char} (ht : t ≠ []) :
    inner (pre ++ '(' :: (t ++ ')' :: post)) pre.length (pre.length + 1 + t.length) = some t := by
  have hl : 0 < t.length := List.length_pos_iff.2 ht
  unfold inner
  rw [if_pos (by omega), if_neg (by omega)]
  have h1 : (pre ++ '(' :: (t ++ ')' :: post)).drop (pre.length + 1) = t ++ ')' :: post := by
    have : pre ++ '(' :: (t ++ ')' :: post) = (pre ++ ['(']) ++ (t ++ ')' :: post) := by simp
    rw [this, List.drop_left' (by simp)]
  have h2 : pre.length + 1 + t.length - pre.length - 1 = t.length := by omega
  rw [h1, h2, List.take_left' rfl]

/-! ### The expanded group -/

theorem expand_formula (sh : K → List Char) (factor : K) (m : SMap String K)
    (hk : ∀ e ∈ m, ∃ c l, e.1.toList = c :: l ∧ c.isUpper = true ∧ ∀ d ∈ l, d.isLower = true)
    (hn : ∀ e ∈ m, ∃ n : Num, n.Valid ∧ sh (e.2 * factor) = n.text ∧ n.value = (e.2 * factor : K)) :
    ∃ g : Fm, g.Flat ∧ g.WF ∧ g.text = expand sh m factor ∧ g.list = m.map (fun e => (e.1.toList, e.2 * factor)) := by
  induction m with
  | nil => exact ⟨.nil, trivial, trivial, rfl, rfl⟩
  | cons e t ih =>
    obtain ⟨g, h1, h2, h3, h4⟩ := ih (fun x hx => hk x (List.mem_cons_of_mem _ hx))
      (fun x hx => hn x (List.mem_cons_of_mem _ hx))
    obtain ⟨n, n1, n2, n3⟩ := hn e (by simp)
    refine ⟨.atom e.1.toList (some n) g, h1, ⟨hk e (by simp), ?_, h2⟩, ?_, ?_⟩
    · intro k hk'; injection hk' with hk'; exact hk' ▸ n1
    · simp only [Fm.text, optText, h3, expand, List.flatMap_cons, n2]
    · simp only [Fm.list, h4, optValue, n3, List.map_cons]

theorem listSum_map (m : SMap String K) (hs : m.Sorted) (factor : K) (x : List Char) :
    listSum x (m.map (fun e => (e.1.toList, e.2 * factor))) = (m.find? (String.ofList x)).getD 0 * factor := by
  induction m with
  | nil => simp [listSum]
  | cons e t ih =>
    have hs' := SMap.sorted_cons.1 hs
    have hc : listSum x ((e :: t).map (fun e => (e.1.toList, e.2 * factor)))
        = (if e.1.toList = x then e.2 * factor else 0) + listSum x (t.map (fun e => (e.1.toList, e.2 * factor))) := by
      simp [listSum]
    rw [hc, ih hs'.2, SMap.find?_cons]
    by_cases h : e.1.toList = x
    · have h' : e.1 = String.ofList x := by rw [← h]; simp
      have : SMap.find? t (String.ofList x) = none := by
        rw [SMap.find?_eq_none_iff]
        intro y hy hyx
        have := hs'.1 y hy
        rw [hyx, ← h'] at this
        exact lt_irrefl _ this
      simp [h, h', this]
    · have h' : ¬ e.1 = String.ofList x := by
        intro hh; apply h; rw [hh]; simp
      simp [h, h']

theorem occurs_sym (f : Fm) (h : f.WF) (x : List Char) (hx : f.Occurs x) :
    ∃ c l, x = c :: l ∧ c.isUpper = true ∧ ∀ d ∈ l, d.isLower = true := by
  induction f with
  | nil => exact absurd hx (by simp [Fm.Occurs])
  | atom s n r ih =>
    rcases hx with hx | hx
    · exact hx ▸ h.1
    · exact ih h.2.2 hx
  | group b n r ih1 ih2 =>
    rcases hx with hx | hx
    · exact ih1 h.2.1 hx
    · exact ih2 h.2.2.2 hx

theorem counts_mem {f : Fm} {m : SMap String K} (h : Counts f m) {e : String × K} (he : e ∈ m) :
    f.Occurs e.1.toList ∧ e.2 = f.atoms e.1.toList := by
  have hf : m.find? e.1 = some e.2 := SMap.find?_of_mem h.1 he
  have hk : String.ofList e.1.toList = e.1 := by simp
  have h2 := h.2 e.1.toList
  rw [hk, hf] at h2
  by_cases ho : f.Occurs e.1.toList
  · have := h2.1 ho
    injection this with this
    exact ⟨ho, this⟩
  · have := h2.2 ho
    simp at this

theorem occurs_of_ne_nil (f : Fm) (h : f.WF) (hne : f ≠ .nil) : ∃ x, f.Occurs x := by
  induction f with
  | nil => exact absurd rfl hne
  | atom s n r ih => exact ⟨s, Or.inl rfl⟩
  | group b n r ih1 ih2 =>
    obtain ⟨x, hx⟩ := ih1 h.2.1 h.1
    exact ⟨x, Or.inl hx⟩

theorem parse_flat (sh : K → List Char) (fuel : Nat) (f : Fm) (hflat : f.Flat) (hwf : f.WF) :
    parse sh (fuel + 1) f.text = .ok (f.list.foldl addAtom []) := by
  have hg := (flat_iff_groups f).1 hflat
  have hc := text_count f hwf
  rw [hg] at hc
  unfold parse
  cases ht : f.text with
  | nil =>
    have := text_eq_nil f hwf ht
    subst this
    simp [badStart, Fm.list]
  | cons c l =>
    have hhead := upper_props (text_head f hwf c l ht)
    have hb : badStart (c :: l) = false := by simp [badStart, hhead]
    have hsp := text_no_space f hwf
    rw [ht] at hc hsp
    rw [if_neg (by simp [hb]), if_neg (by rw [hc.1, hc.2]; simp), if_neg hsp, if_neg (by rw [hc.1]; simp), ← ht,
      parseFlat_text f hflat hwf]

theorem parse_counts (sh : K → List Char) (N : Nat) : ∀ (f : Fm), f.groups = N → f.WF → f.Served [] → f.Exact sh →
    ∀ fuel, N ≤ fuel → ∃ m : SMap String K, parse sh (fuel + 1) f.text = .ok m ∧ Counts f m := by
  induction N with
  | zero =>
    intro f hN hwf _ _ fuel _
    have hflat := (flat_iff_groups f).2 hN
    exact ⟨_, parse_flat sh fuel f hflat hwf, flat_counts f hflat⟩
  | succ N ih =>
    intro f hN hwf hsv hex fuel hfuel
    have hnf : ¬ f.Flat := by rw [flat_iff_groups]; omega
    obtain ⟨pre, body, num, suf, h1, h2, h3, h4, h5, h6, h7, h8, h9, h10, h11⟩ := first_group sh f [] hnf hwf hsv hex
    rw [List.append_nil] at h6 h7
    have hbc := text_count body h4
    rw [(flat_iff_groups body).1 h3] at hbc
    have hb1 : '(' ∉ body.text := List.count_eq_zero.1 hbc.1
    have hb2 : ')' ∉ body.text := List.count_eq_zero.1 hbc.2
    have hbt : body.text ≠ [] := fun h => h5 (text_eq_nil body h4 h)
    have hidx : f.text.idxOf ')' = pre.length + 1 + body.text.length := by
      rw [h1]
      have : pre ++ '(' :: (body.text ++ ')' :: (optText num ++ suf))
          = (pre ++ '(' :: body.text) ++ ')' :: (optText num ++ suf) := by simp
      rw [this, idxOf_first]
      · simp; omega
      · simp only [List.mem_append, List.mem_cons, not_or]; exact ⟨h2, by decide, hb2⟩
    have hopen : openPos f.text = pre.length := by rw [h1]; exact openPos_first h2 hb2 hb1
    have hinner : inner f.text pre.length (pre.length + 1 + body.text.length) = some body.text := by
      rw [h1]; exact inner_first hbt
    obtain ⟨fuel, rfl⟩ : ∃ k, fuel = k + 1 := ⟨fuel - 1, by omega⟩
    have hbody := parse_flat sh fuel body h3 h4
    have hbcounts := flat_counts (K := K) body h3
    generalize hm : (body.list.foldl addAtom [] : SMap String K) = m at hbody hbcounts
    have hmne : m ≠ [] := by
      obtain ⟨x, hx⟩ := occurs_of_ne_nil body h4 h5
      intro hnil
      have := (hbcounts.2 x).1 hx
      rw [hnil] at this
      simp at this
    have hdrop : f.text.drop (pre.length + 1 + body.text.length + 1) = optText num ++ suf := by
      rw [h1]
      have : pre ++ '(' :: (body.text ++ ')' :: (optText num ++ suf))
          = (pre ++ '(' :: body.text ++ [')']) ++ (optText num ++ suf) := by simp
      rw [this, List.drop_left' (by simp; omega)]
    have hlen : f.text.length = pre.length + 1 + body.text.length + 1 + (optText num).length + suf.length := by
      rw [h1]; simp; omega
    have hfac : groupFactor f.text (pre.length + 1 + body.text.length)
        = some ((optValue num : K), pre.length + 1 + body.text.length + 1 + (optText num).length) := by
      unfold groupFactor
      by_cases hend : pre.length + 1 + body.text.length + 1 = f.text.length
      · rw [if_pos hend]
        have hnl : (optText num).length = 0 := by omega
        have hnum : num = none := by
          cases num with
          | none => rfl
          | some n => exact absurd (List.length_eq_zero_iff.1 hnl) (text_ne_nil (h8 n rfl))
        subst hnum
        rw [← hend, hnl]
        rfl
      · rw [if_neg hend]
        have hnum : ∃ n, num = some n := by
          cases num with
          | none => exfalso; have := h6 rfl; apply hend; rw [hlen, this]; simp [optText]
          | some n => exact ⟨n, rfl⟩
        obtain ⟨n, rfl⟩ := hnum
        have hv := h8 n rfl
        have htw : (f.text.drop (pre.length + 1 + body.text.length + 1)).takeWhile (fun c => !stops c) = n.text := by
          rw [hdrop]
          refine (takeWhile_append_all ?_ ?_).1
          · intro c hc
            have := numChar_props (text_numChar hv c hc)
            simp [stops, this.1, this.2.1, this.2.2.1, this.2.2.2.1]
          · intro c l hcl; simp [h9 c l hcl]
        simp only [htw, stringToDouble_text (K := K) hv]
        rfl
    have hfac' := hfac
    have hrew : rewritten sh f.text pre.length m (optValue num : K)
        (pre.length + 1 + body.text.length + 1 + (optText num).length) = pre ++ (expand sh m (optValue num) ++ suf) := by
      unfold rewritten
      have htake : f.text.take pre.length = pre := by rw [h1, List.take_left' rfl]
      have hd2 : f.text.drop (pre.length + 1 + body.text.length + 1 + (optText num).length) = suf := by
        rw [← List.drop_drop, hdrop, List.drop_left' rfl]
      rw [htake, hd2]
      split
      · simp
      · rename_i hlt
        have : suf = [] := by
          apply List.length_eq_zero_iff.1
          omega
        simp [this]
    have hkey : ∀ e ∈ m, ∃ c l, e.1.toList = c :: l ∧ c.isUpper = true ∧ ∀ d ∈ l, d.isLower = true :=
      fun e he => occurs_sym body h4 _ (counts_mem hbcounts he).1
    have hnum : ∀ e ∈ m, ∃ n : Num, n.Valid ∧ sh (e.2 * optValue num) = n.text ∧ n.value = (e.2 * optValue num : K) := by
      intro e he
      obtain ⟨ho, hv⟩ := counts_mem hbcounts he
      rw [hv]
      exact h10 _ ho
    obtain ⟨g, g1, g2, g3, g4⟩ := expand_formula sh (optValue num) m hkey hnum
    have gocc : ∀ x, g.Occurs x ↔ body.Occurs x := by
      intro x
      rw [flat_occurs (K := K) g g1, g4]
      constructor
      · intro hx
        simp only [List.map_map, List.mem_map] at hx
        obtain ⟨e, he, rfl⟩ := hx
        exact (counts_mem hbcounts he).1
      · intro hx
        have := SMap.mem_of_find? ((hbcounts.2 x).1 hx)
        simp only [List.map_map, List.mem_map]
        exact ⟨_, this, by simp⟩
    have gat : ∀ x, (g.atoms x : K) = body.atoms x * optValue num := by
      intro x
      rw [flat_atoms g g1, g4, listSum_map m hbcounts.1]
      by_cases hx : body.Occurs x
      · rw [(hbcounts.2 x).1 hx]; rfl
      · rw [(hbcounts.2 x).2 hx]
        have : (body.atoms x : K) = 0 := by
          have h0 := flat_atoms (K := K) body h3 x
          rw [h0]
          unfold listSum
          apply List.sum_eq_zero
          intro y hy
          obtain ⟨e, he, rfl⟩ := List.mem_map.1 hy
          have : e.1 ≠ x := fun hh => hx ((flat_occurs (K := K) body h3 x).2 (hh ▸ List.mem_map_of_mem (f := Prod.fst) he))
          simp [this]
        simp [this]
    have gne : g ≠ .nil := by
      obtain ⟨x, hx⟩ := occurs_of_ne_nil body h4 h5
      rintro rfl
      exact (gocc x).2 hx
    obtain ⟨f', k1, k2, k3, k4, k5, k6, k7, k8⟩ := h11 g g1 g2 gne gocc gat
    obtain ⟨m', p1, p2⟩ := ih f' (by omega) k2 k4 k5 fuel (by omega)
    refine ⟨m', ?_, p2.1, ?_⟩
    · rw [k1, g3] at p1
      have hc := text_count f hwf
      have hsp := text_no_space f hwf
      have hb : badStart f.text = false := by
        cases ht : f.text with
        | nil => rw [ht] at hlen; simp at hlen; omega
        | cons c l => have := upper_props (text_head f hwf c l ht); simp [badStart, this]
      unfold parse
      rw [if_neg (by simp [hb]), if_neg (by rw [hc.1, hc.2]; simp), if_neg hsp, if_pos (by rw [hc.1]; omega), hopen, hidx,
        hinner]
      simp only [hbody, Outcome.ok_bind, if_neg hmne, hfac, hrew]
      exact p1
    · intro x
      have := p2.2 x
      rw [k6 x, k7 x] at this
      exact this

/-! ### C27 -/

/-- C27, formulas without groups: for every sequence of any length of element symbols with optional decimal numbers,
the result has exactly the elements that occur, each with its number of atoms, whatever `toString` does. -/
theorem C27_flat_formula (sh : K → List Char) (f : Fm) (hwf : f.WF) (hflat : f.groups = 0) :
    ∃ m : SMap String K, Returns sh f.text m ∧ Counts f m :=
  ⟨_, ⟨1, parse_flat sh 0 f ((flat_iff_groups f).2 hflat) hwf⟩, flat_counts f ((flat_iff_groups f).2 hflat)⟩

/-- C27, formulas with groups nested to any depth. Partial: the groups must be `Served` (an explicit number unless the
group ends the string; not followed by a single character), and the numbers of atoms of each group must be written
exactly by `toString`. The theorems `C27_*_violated` show what happens otherwise. -/
theorem C27_group_formula_partial (sh : K → List Char) (f : Fm) (hwf : f.WF) (hsv : f.Served []) (hex : f.Exact sh) :
    ∃ m : SMap String K, Returns sh f.text m ∧ Counts f m := by
  obtain ⟨m, h1, h2⟩ := parse_counts sh f.groups f rfl hwf hsv hex f.groups (le_refl _)
  exact ⟨m, ⟨_, h1⟩, h2⟩

/-- The call has one result. -/
theorem parse_mono (sh : K → List Char) (n : Nat) : ∀ (k : Nat) (s : List Char) (m : SMap String K),
    parse sh n s = .ok m → parse sh (n + k) s = .ok m := by
  induction n with
  | zero => intro k s m h; simp [parse] at h
  | succ n ih =>
    intro k s m h
    have : n + 1 + k = (n + k) + 1 := by omega
    rw [this]
    unfold parse at h ⊢
    by_cases c1 : badStart s = true
    · rw [if_pos c1] at h ⊢; exact h
    by_cases c2 : s.count '(' ≠ s.count ')'
    · rw [if_neg c1, if_pos c2] at h ⊢; exact h
    by_cases c3 : ' ' ∈ s
    · rw [if_neg c1, if_neg c2, if_pos c3] at h ⊢; exact h
    by_cases c4 : s.count '(' > 0
    · rw [if_neg c1, if_neg c2, if_neg c3, if_pos c4] at h ⊢
      cases hi : inner s (openPos s) (s.idxOf ')') with
      | none => rw [hi] at h; exact h
      | some t =>
        rw [hi] at h
        simp only at h ⊢
        rw [Outcome.bind_eq_ok] at h ⊢
        obtain ⟨a, ha, h⟩ := h
        refine ⟨a, ih k t a ha, ?_⟩
        by_cases c5 : a = []
        · rw [if_pos c5] at h ⊢; exact h
        · rw [if_neg c5] at h ⊢
          cases hg : (groupFactor s (s.idxOf ')') : Option (K × Nat)) with
          | none => rw [hg] at h; exact h
          | some fi => rw [hg] at h; exact ih k _ _ h
    · rw [if_neg c1, if_neg c2, if_neg c3, if_neg c4] at h ⊢; exact h

/-- A call has at most one result: the theorems above determine what `parseFormula` returns. -/
theorem C27_result_unique (sh : K → List Char) (s : List Char) (m m' : SMap String K) (h : Returns sh s m)
    (h' : Returns sh s m') : m = m' := by
  obtain ⟨n, hn⟩ := h
  obtain ⟨n', hn'⟩ := h'
  have h1 := parse_mono sh n n' s m hn
  have h2 := parse_mono sh n' n s m' hn'
  rw [Nat.add_comm, h2] at h1
  injection h1 with h1
  exact h1.symm

/-! #### Whole numbers -/

/-- A whole number, one when missing. -/
def wholeOf : Option Num → ℕ
  | none => 1
  | some n => Nat.ofDigitChars 10 n.ip 0

/-- The number of atoms of an element when all the numbers are whole. -/
def Fm.wholeAtoms (x : List Char) : Fm → ℕ
  | .nil => 0
  | .atom sym num rest =>
    (if sym = x then wholeOf num else 0) + wholeAtoms x rest
  | .group body num rest =>
    wholeOf num * wholeAtoms x body + wholeAtoms x rest

/-- All the numbers are whole and no group contains a million atoms of an element. -/
def Fm.Whole : Fm → Prop
  | .nil => True
  | .atom _ num rest => (∀ n, num = some n → n.dot = false) ∧ Whole rest
  | .group body num rest => (∀ n, num = some n → n.dot = false) ∧ Whole body ∧ Whole rest
    ∧ ∀ x, wholeOf num * wholeAtoms x body < 1000000

theorem optValue_whole {num : Option Num} (hv : ∀ n, num = some n → n.Valid) (h : ∀ n, num = some n → n.dot = false) :
    (optValue num : K) = (wholeOf num : K) := by
  cases num with
  | none => simp [optValue, wholeOf]
  | some n => simp [optValue, wholeOf, Num.value, (hv n rfl).2.2.1 (h n rfl)]

theorem atoms_whole (f : Fm) (hwf : f.WF) (h : f.Whole) (x : List Char) : (f.atoms x : K) = (f.wholeAtoms x : K) := by
  induction f with
  | nil => simp [Fm.atoms, Fm.wholeAtoms]
  | atom s n r ih =>
    simp only [Fm.atoms, Fm.wholeAtoms]
    rw [ih hwf.2.2 h.2, optValue_whole hwf.2.1 h.1]
    by_cases hs : s = x
    · rw [if_pos hs, if_pos hs]; push_cast; rfl
    · rw [if_neg hs, if_neg hs]; push_cast; rfl
  | group b n r ih1 ih2 =>
    simp only [Fm.atoms, Fm.wholeAtoms]
    rw [ih1 hwf.2.1 h.2.1, ih2 hwf.2.2.2 h.2.2.1, optValue_whole hwf.2.2.1 h.1]
    push_cast; rfl

/-- The decimal digits of a natural number. -/
def natNum (n : ℕ) : Num := { ip := Nat.toDigits 10 n, dot := false, fp := [] }

theorem natNum_valid (n : ℕ) : (natNum n).Valid :=
  ⟨fun _ hc => Nat.isDigit_of_mem_toDigits (by decide) (by decide) hc, by simp [natNum], by simp [natNum],
    Or.inl Nat.toDigits_ne_nil⟩

theorem natNum_value (n : ℕ) : ((natNum n).value : K) = n := by
  simp [natNum, Num.value, Nat.ofDigitChars_ten_toDigits]

theorem exact_of_whole (sh : K → List Char) (hsh : ∀ n : ℕ, n < 1000000 → sh n = Nat.toDigits 10 n) (f : Fm)
    (hwf : f.WF) (h : f.Whole) : f.Exact sh := by
  induction f with
  | nil => trivial
  | atom s n r ih => exact ih hwf.2.2 h.2
  | group b n r ih1 ih2 =>
    refine ⟨fun x _ => ?_, ih1 hwf.2.1 h.2.1, ih2 hwf.2.2.2 h.2.2.1⟩
    have hv := h.2.2.2 x
    have e : (b.atoms x * optValue n : K)
        = ((wholeOf n * b.wholeAtoms x : ℕ) : K) := by
      rw [atoms_whole b hwf.2.1 h.2.1, optValue_whole hwf.2.2.1 h.1]
      push_cast
      ring
    rw [e]
    refine ⟨natNum _, natNum_valid _, ?_, natNum_value _⟩
    rw [hsh _ hv]
    simp [natNum, Num.text]

/-- C27 for whole numbers: `toString` is only assumed to write the natural numbers below a million (what `ostream`
does with its default precision). -/
theorem C27_whole_formula_partial (sh : K → List Char) (hsh : ∀ n : ℕ, n < 1000000 → sh n = Nat.toDigits 10 n) (f : Fm)
    (hwf : f.WF) (hsv : f.Served []) (h : f.Whole) :
    ∃ m : SMap String K, Returns sh f.text m ∧ ∀ x, m.find? (String.ofList x)
      = open Classical in if f.Occurs x then some ((f.wholeAtoms x : ℕ) : K) else none := by
  obtain ⟨m, h1, h2⟩ := C27_group_formula_partial sh f hwf hsv (exact_of_whole sh hsh f hwf h)
  refine ⟨m, h1, fun x => ?_⟩
  by_cases hx : f.Occurs x
  · rw [if_pos hx, (h2.2 x).1 hx, atoms_whole f hwf h]
  · rw [if_neg hx, (h2.2 x).2 hx]

/-! #### Termination -/

/-- No closing parenthesis comes before the opening one it closes. -/
def Opened (s : List Char) : Prop := ∀ p, p <+: s → p.count ')' ≤ p.count '('

theorem mem_takeWhile_true {p : Char → Bool} {l : List Char} {c : Char} (h : c ∈ l.takeWhile p) : p c = true := by
  induction l with
  | nil => simp at h
  | cons d t ih =>
    rw [List.takeWhile_cons] at h
    split at h
    · rename_i hd
      rcases List.mem_cons.1 h with h | h
      · rw [h]; exact hd
      · exact ih h
    · simp at h

theorem prefix_append_iff' {p a b : List Char} : p <+: a ++ b ↔ p <+: a ∨ ∃ q, p = a ++ q ∧ q <+: b := by
  constructor
  · intro h
    rcases Nat.le_total p.length a.length with hl | hl
    · exact Or.inl (List.prefix_of_prefix_length_le h (List.prefix_append a b) hl)
    · obtain ⟨q, hq⟩ := List.prefix_of_prefix_length_le (List.prefix_append a b) h hl
      refine Or.inr ⟨q, hq.symm, ?_⟩
      rw [← hq] at h
      exact (List.prefix_append_right_inj a).1 h
  · rintro (h | ⟨q, rfl, hq⟩)
    · exact h.trans (List.prefix_append a b)
    · exact (List.prefix_append_right_inj a).2 hq

/-- What a key of a parse result is made of. -/
def Letters (l : List Char) : Prop := ∀ c ∈ l, c.isUpper = true ∨ c.isLower = true

theorem flush_keys {st : Scan K} {f} (h : flush st = some f) (h1 : ∀ a ∈ st.found, Letters a.1)
    (h2 : Letters st.lastKey) : ∀ a ∈ f, Letters a.1 := by
  have hl : ∀ x : K, ∀ a ∈ st.found ++ [(st.lastKey, x)], Letters a.1 := by
    intro x a ha
    rcases List.mem_append.1 ha with ha | ha
    · exact h1 a ha
    · simp only [List.mem_singleton] at ha; subst ha; exact h2
  unfold flush at h
  split at h
  · injection h with h; subst h; exact h1
  · split at h
    · injection h with h; subst h; exact hl _
    · split at h
      · injection h with h; subst h; exact hl _
      · simp at h

theorem flatLoop_keys (s : List Char) (st st' : Scan K) (h : flatLoop s st = some st')
    (h1 : ∀ a ∈ st.found, Letters a.1) (h2 : Letters st.lastKey) :
    (∀ a ∈ st'.found, Letters a.1) ∧ Letters st'.lastKey := by
  induction s generalizing st with
  | nil => simp only [flatLoop] at h; injection h with h; subst h; exact ⟨h1, h2⟩
  | cons c t ih =>
    simp only [flatLoop] at h
    cases hc : flatChar st c with
    | none => rw [hc] at h; simp at h
    | some st1 =>
      rw [hc] at h
      refine ih st1 h ?_ ?_
      · unfold flatChar at hc
        split at hc
        · split at hc
          · rename_i f hf
            injection hc with hc; subst hc; exact flush_keys hf h1 h2
          · simp at hc
        · split at hc <;> (injection hc with hc; subst hc; exact h1)
      · unfold flatChar at hc
        split at hc
        · rename_i hu
          split at hc
          · injection hc with hc; subst hc
            intro d hd; simp only [List.mem_singleton] at hd; subst hd; exact Or.inl hu
          · simp at hc
        · split at hc
          · rename_i hlow
            injection hc with hc; subst hc
            intro d hd
            rcases List.mem_append.1 hd with hd | hd
            · exact h2 d hd
            · simp only [List.mem_singleton] at hd; subst hd; exact Or.inr hlow
          · injection hc with hc; subst hc; exact h2

theorem addAtom_keys (l : List (List Char × K)) (m : SMap String K) (hl : ∀ a ∈ l, Letters a.1)
    (hm : ∀ e ∈ m, Letters e.1.toList) : ∀ e ∈ l.foldl addAtom m, Letters e.1.toList := by
  induction l generalizing m with
  | nil => exact hm
  | cons a t ih =>
    refine ih _ (fun b hb => hl b (List.mem_cons_of_mem _ hb)) ?_
    intro e he
    unfold addAtom at he
    split at he
    · rcases SMap.mem_insert he with he | he
      · rw [he]; simpa using hl a (by simp)
      · exact hm e he
    · rcases SMap.mem_insert he with he | he
      · rw [he]; simpa using hl a (by simp)
      · exact hm e he

theorem parseFlat_keys (s : List Char) : ∀ e ∈ (parseFlat s : SMap String K), Letters e.1.toList := by
  intro e he
  unfold parseFlat at he
  split at he
  · simp at he
  · split at he
    · split at he
      · rename_i st hst
        have hk := flatLoop_keys _ _ _ hst (by simp) (by intro c hc; simp at hc)
        split at he
        · rename_i l hl
          refine addAtom_keys l [] ?_ (by simp) e he
          have hl' : ∀ x : K, ∀ a ∈ st.found ++ [(st.lastKey, x)], Letters a.1 := by
            intro x a ha
            rcases List.mem_append.1 ha with ha | ha
            · exact hk.1 a ha
            · simp only [List.mem_singleton] at ha; subst ha; exact hk.2
          unfold flatEnd at hl
          split at hl
          · injection hl with hl; subst hl; exact hl' _
          · split at hl
            · injection hl with hl; subst hl; exact hl' _
            · simp at hl
        · simp at he
      · simp at he
    · simp at he

theorem parse_noparen (sh : K → List Char) (fuel : Nat) (s : List Char) (h1 : '(' ∉ s) (h2 : ')' ∉ s) :
    parse sh (fuel + 1) s = .ok [] ∨ parse sh (fuel + 1) s = .ok (parseFlat s) := by
  have c1 : s.count '(' = 0 := List.count_eq_zero.2 h1
  have c2 : s.count ')' = 0 := List.count_eq_zero.2 h2
  unfold parse
  by_cases hb : badStart s = true
  · left; rw [if_pos hb]
  by_cases hs : ' ' ∈ s
  · left; rw [if_neg hb, if_neg (by rw [c1, c2]; simp), if_pos hs]
  · right; rw [if_neg hb, if_neg (by rw [c1, c2]; simp), if_neg hs, if_neg (by rw [c1]; simp)]

/-- The first closing parenthesis and the last opening one before it. -/
theorem split_first {s : List Char} (h : Opened s) (hc : ')' ∈ s) :
    ∃ pre t post, s = pre ++ '(' :: (t ++ ')' :: post) ∧ ')' ∉ pre ∧ ')' ∉ t ∧ '(' ∉ t := by
  obtain ⟨a, post, rfl, ha⟩ := List.eq_append_cons_of_mem hc
  have h1 := h (a ++ [')']) ⟨post, by simp⟩
  have hmem : '(' ∈ a := by
    by_contra hn
    have h0 : a.count '(' = 0 := List.count_eq_zero.2 hn
    simp [List.count_append, h0] at h1
  obtain ⟨b, c, hbc, hb⟩ := List.eq_append_cons_of_mem (List.mem_reverse.2 hmem)
  have hrev : a = c.reverse ++ '(' :: b.reverse := by
    have := congrArg List.reverse hbc
    simpa using this
  refine ⟨c.reverse, b.reverse, post, ?_, ?_, ?_, ?_⟩
  · rw [hrev]; simp
  · intro hh; apply ha; rw [hrev]; exact List.mem_append_left _ hh
  · intro hh; apply ha; rw [hrev]; exact List.mem_append_right _ (List.mem_cons_of_mem _ hh)
  · simpa using hb

theorem expand_noparen (sh : K → List Char) (hsh : ∀ v, '(' ∉ sh v ∧ ')' ∉ sh v) (m : SMap String K) (f : K)
    (hm : ∀ e ∈ m, Letters e.1.toList) : '(' ∉ expand sh m f ∧ ')' ∉ expand sh m f := by
  constructor
  · intro h
    obtain ⟨e, he, h⟩ := List.mem_flatMap.1 h
    rcases List.mem_append.1 h with h | h
    · exact (letter_props (hm e he _ h)).1 rfl
    · exact (hsh _).1 h
  · intro h
    obtain ⟨e, he, h⟩ := List.mem_flatMap.1 h
    rcases List.mem_append.1 h with h | h
    · exact (letter_props (hm e he _ h)).2.1 rfl
    · exact (hsh _).2 h

/-- C27, termination: every string in which no closing parenthesis comes before its opening one is answered, well
formed or not, whatever `toString` writes (no parentheses). Partial: see `C27_termination_violated`. -/
theorem C27_terminates_partial (sh : K → List Char) (hsh : ∀ v, '(' ∉ sh v ∧ ')' ∉ sh v) (s : List Char)
    (h : Opened s) : ∃ m : SMap String K, Returns sh s m := by
  suffices ∀ N, ∀ s : List Char, Opened s → s.count '(' ≤ N →
      ∃ m : SMap String K, parse sh (N + 1) s = .ok m by
    obtain ⟨m, hm⟩ := this _ s h (le_refl _)
    exact ⟨m, _, hm⟩
  intro N
  induction N with
  | zero =>
    intro s h hc
    have c1 : s.count '(' = 0 := by omega
    have c2 : s.count ')' = 0 := by have := h s (List.prefix_refl s); omega
    rcases parse_noparen sh 0 s (List.count_eq_zero.1 c1) (List.count_eq_zero.1 c2) with h | h
    · exact ⟨_, h⟩
    · exact ⟨_, h⟩
  | succ N ih =>
    intro s h hc
    unfold parse
    by_cases c1 : badStart s = true
    · exact ⟨_, if_pos c1⟩
    rw [if_neg c1]
    by_cases c2 : s.count '(' ≠ s.count ')'
    · exact ⟨_, if_pos c2⟩
    rw [if_neg c2]
    by_cases c3 : ' ' ∈ s
    · exact ⟨_, if_pos c3⟩
    rw [if_neg c3]
    by_cases c4 : s.count '(' > 0
    · rw [if_pos c4]
      have hmem : ')' ∈ s := List.count_pos_iff.1 (by rw [not_not] at c2; omega)
      obtain ⟨pre, t, post, hs, n1, n2, n3⟩ := split_first h hmem
      have hidx : s.idxOf ')' = pre.length + 1 + t.length := by
        have : s = (pre ++ '(' :: t) ++ ')' :: post := by rw [hs]; simp
        rw [this, idxOf_first]
        · simp; omega
        · simp only [List.mem_append, List.mem_cons, not_or]; exact ⟨n1, by decide, n2⟩
      have hopen : openPos s = pre.length := by rw [hs]; exact openPos_first n1 n2 n3
      rw [hidx, hopen]
      by_cases ht : t = []
      · have : inner s pre.length (pre.length + 1 + t.length) = none := by
          unfold inner
          rw [if_pos (by omega), if_pos (by rw [ht]; simp)]
        rw [this]
        exact ⟨_, rfl⟩
      · have : inner s pre.length (pre.length + 1 + t.length) = some t := by rw [hs]; exact inner_first ht
        rw [this]
        simp only
        obtain ⟨m, hm, hkeys⟩ : ∃ m : SMap String K, parse sh (N + 1) t = .ok m ∧ ∀ e ∈ m, Letters e.1.toList := by
          rcases parse_noparen sh N t n3 n2 with h | h
          · exact ⟨_, h, by simp⟩
          · exact ⟨_, h, parseFlat_keys t⟩
        rw [hm]
        simp only [Outcome.ok_bind]
        by_cases c5 : m = []
        · exact ⟨_, if_pos c5⟩
        rw [if_neg c5]
        cases hg : (groupFactor s (pre.length + 1 + t.length) : Option (K × Nat)) with
        | none => exact ⟨_, rfl⟩
        | some fi =>
          obtain ⟨f, i⟩ := fi
          simp only
          -- what remains after the number of the group
          obtain ⟨num, rest, hpost, hi⟩ : ∃ num rest, post = num ++ rest ∧ s.drop i = rest := by
            have hdrop : s.drop (pre.length + 1 + t.length + 1) = post := by
              have : s = (pre ++ '(' :: t ++ [')']) ++ post := by rw [hs]; simp
              rw [this, List.drop_left' (by simp; omega)]
            refine ⟨post.take (i - (pre.length + 1 + t.length + 1)), post.drop (i - (pre.length + 1 + t.length + 1)),
              (List.take_append_drop _ _).symm, ?_⟩
            have hle : pre.length + 1 + t.length + 1 ≤ i := by
              have hlen : s.length = pre.length + 1 + t.length + 1 + post.length := by rw [hs]; simp; omega
              unfold groupFactor at hg
              split at hg
              · injection hg with hg; injection hg with _ hg; omega
              · simp only at hg
                split at hg
                · injection hg with hg; injection hg with _ hg; omega
                · simp at hg
            rw [← hdrop, List.drop_drop]
            congr 1
            omega
          have hnum1 : num.count '(' = 0 ∧ num.count ')' = 0 := by
            have hdrop : s.drop (pre.length + 1 + t.length + 1) = post := by
              have : s = (pre ++ '(' :: t ++ [')']) ++ post := by rw [hs]; simp
              rw [this, List.drop_left' (by simp; omega)]
            have hlen : s.length = pre.length + 1 + t.length + 1 + post.length := by rw [hs]; simp; omega
            have hrl : rest.length = s.length - i := by rw [← hi]; simp
            have hpl : post.length = num.length + rest.length := by rw [hpost]; simp
            unfold groupFactor at hg
            split at hg
            · rename_i he
              have : num = [] := List.length_eq_zero_iff.1 (by omega)
              simp [this]
            · simp only at hg
              split at hg
              · injection hg with hg; injection hg with _ hg
                rw [hdrop] at hg
                have hpre : post.takeWhile (fun c => !stops c) = num := by
                  have h1 : post.takeWhile (fun c => !stops c) <+: post := List.takeWhile_prefix _
                  have h2 : num <+: post := ⟨rest, hpost.symm⟩
                  have hl : (post.takeWhile (fun c => !stops c)).length = num.length := by
                    have := h1.length_le
                    omega
                  exact (List.prefix_of_prefix_length_le h1 h2 (by omega)).eq_of_length hl
                rw [← hpre]
                constructor <;> rw [List.count_eq_zero]
                · intro hh; have := mem_takeWhile_true hh; simp [stops] at this
                · intro hh; have := mem_takeWhile_true hh; simp [stops] at this
              · simp at hg
          have hen := expand_noparen sh hsh m f hkeys
          have e1 : (expand sh m f).count '(' = 0 := List.count_eq_zero.2 hen.1
          have e2 : (expand sh m f).count ')' = 0 := List.count_eq_zero.2 hen.2
          have t1 : t.count '(' = 0 := List.count_eq_zero.2 n3
          have t2 : t.count ')' = 0 := List.count_eq_zero.2 n2
          have hpre2 : rewritten sh s pre.length m f i <+: pre ++ expand sh m f ++ rest := by
            unfold rewritten
            have htake : s.take pre.length = pre := by rw [hs, List.take_left' rfl]
            rw [htake]
            split
            · rw [hi]
            · rw [List.append_nil]; exact List.prefix_append _ _
          have hopened : Opened (pre ++ expand sh m f ++ rest) := by
            intro p hp
            rw [prefix_append_iff'] at hp
            rcases hp with hp | ⟨q, rfl, hq⟩
            · rw [prefix_append_iff'] at hp
              rcases hp with hp | ⟨q, rfl, hq⟩
              · exact h p (hp.trans ⟨_, hs.symm⟩)
              · have q2 : q.count ')' = 0 :=
                  List.count_eq_zero.2 (fun hh => hen.2 (hq.subset hh))
                have := h pre ⟨_, hs.symm⟩
                simp only [List.count_append]; omega
            · have hq' : pre ++ '(' :: (t ++ ')' :: (num ++ q)) <+: s := by
                obtain ⟨r, hr⟩ := hq
                refine ⟨r, ?_⟩
                rw [hs, hpost, ← hr]
                simp
              have := h _ hq'
              simp only [List.count_append, List.count_cons, e1, e2, t1, t2, hnum1.1, hnum1.2] at this ⊢
              simp at this ⊢
              omega
          refine ih _ (fun p hp => hopened p (hp.trans hpre2)) ?_
          have hle := hpre2.sublist.count_le '('
          have : s.count '(' = pre.count '(' + 1 + rest.count '(' := by
            rw [hs, hpost]
            simp only [List.count_append, List.count_cons, t1, hnum1.1]
            simp
            omega
          simp only [List.count_append, e1] at hle
          omega
    · exact ⟨_, if_neg c4⟩

/-! #### What does not hold -/

/-- The assumption of `C27_whole_formula_partial` is met. -/
theorem exampleShow_nat (n : ℕ) (h : n < 1000000) : exampleShow (n : ℚ) = Nat.toDigits 10 n := by
  unfold exampleShow
  rw [if_pos]
  · simp
  · refine ⟨by simp, by positivity, ?_⟩
    exact_mod_cast h

/-- `A)2…(C` with `w` between the parentheses. -/
def looping (w : List Char) : List Char := 'A' :: ')' :: '2' :: (w ++ ['(', 'C'])

theorem looping_step (sh : K → List Char) (h2 : sh 2 = ['2']) (w : List Char)
    (h : ∀ c ∈ w, c = 'C' ∨ c = '2') (hh : ∀ c l, w = c :: l → c = 'C') (n : Nat) :
    parse sh (n + 2) (looping w) = parse sh (n + 1) (looping (w ++ 'C' :: '2' :: w)) := by
  have w1 : '(' ∉ w := fun hc => by rcases h _ hc with h | h <;> revert h <;> decide
  have w2 : ')' ∉ w := fun hc => by rcases h _ hc with h | h <;> revert h <;> decide
  have w3 : ' ' ∉ w := fun hc => by rcases h _ hc with h | h <;> revert h <;> decide
  have c1 : (looping w).count '(' = 1 := by
    have : w.count '(' = 0 := List.count_eq_zero.2 w1
    simp [looping, List.count_append, List.count_cons, this]
  have c2 : (looping w).count ')' = 1 := by
    have : w.count ')' = 0 := List.count_eq_zero.2 w2
    simp [looping, List.count_append, List.count_cons, this]
  have hop : openPos (looping w) = w.length + 3 := by
    unfold openPos
    rw [if_neg (by rw [c1]; simp)]
    have : looping w = ('A' :: ')' :: '2' :: w) ++ '(' :: ['C'] := by simp [looping]
    rw [this, idxOf_first]
    · rfl
    · simp only [List.mem_cons, not_or]; exact ⟨by decide, by decide, by decide, w1⟩
  have hid : (looping w).idxOf ')' = 1 := by
    have : looping w = ['A'] ++ ')' :: ('2' :: (w ++ ['(', 'C'])) := by simp [looping]
    rw [this, idxOf_first]
    · rfl
    · decide
  have hin : inner (looping w) (w.length + 3) 1 = some ['C'] := by
    unfold inner
    rw [if_neg (by omega)]
    have : looping w = ('A' :: ')' :: '2' :: (w ++ ['('])) ++ ['C'] := by simp [looping]
    rw [this, List.drop_left' (by simp)]
  have hp : parse sh (n + 1) ['C'] = .ok [("C", (1 : K))] := by
    have hf := parse_flat sh n (.atom ['C'] none .nil) trivial
      ⟨⟨'C', [], rfl, by decide, by simp⟩, by simp, trivial⟩
    have e : (Fm.atom ['C'] none .nil).text = ['C'] := rfl
    rw [e] at hf
    rw [hf]
    rfl
  have hg : groupFactor (looping w) 1 = some ((2 : K), 3) := by
    unfold groupFactor
    rw [if_neg (by simp [looping])]
    have hd : (looping w).drop (1 + 1) = ['2'] ++ (w ++ ['(', 'C']) := rfl
    have ht : ((looping w).drop (1 + 1)).takeWhile (fun c => !stops c) = ['2'] := by
      rw [hd]
      refine (takeWhile_append_all (by simp; decide) ?_).1
      intro c l hcl
      cases w with
      | nil => simp only [List.nil_append] at hcl; injection hcl with hc _; rw [← hc]; decide
      | cons d l' => simp only [List.cons_append] at hcl; injection hcl with hc _; rw [← hc, hh d l' rfl]; decide
    have hs : stringToDouble ['2'] = some (2 : K) := by
      have hv : (natNum 2).Valid := natNum_valid 2
      have := stringToDouble_text (K := K) hv
      rw [natNum_value] at this
      exact_mod_cast this
    simp only [ht, hs]
    rfl
  have hr : rewritten sh (looping w) (w.length + 3) [("C", (1 : K))] 2 3 = looping (w ++ 'C' :: '2' :: w) := by
    unfold rewritten
    have ht : (looping w).take (w.length + 3) = 'A' :: ')' :: '2' :: w := by
      have : looping w = ('A' :: ')' :: '2' :: w) ++ ['(', 'C'] := by simp [looping]
      rw [this, List.take_left' (by simp)]
    have he : expand sh [("C", (1 : K))] 2 = ['C', '2'] := by
      simp only [expand, List.flatMap_cons, List.flatMap_nil, one_mul, h2]
      rfl
    have hd : (looping w).drop 3 = w ++ ['(', 'C'] := rfl
    rw [ht, he, hd, if_pos (by simp [looping])]
    simp [looping]
  conv_lhs => unfold parse
  rw [if_neg (show ¬ badStart (looping w) = true from by simp [looping, badStart]), if_neg (by rw [c1, c2]; simp),
    if_neg (by simp only [looping, List.mem_cons, List.mem_append, not_or]; exact ⟨by decide, by decide, by decide, w3, by decide⟩),
    if_pos (by rw [c1]; simp), hop, hid, hin]
  simp only [hp, Outcome.ok_bind, hg, hr]
  simp

/-- C27 is violated: a malformed string for which `parseFormula` never returns (each recursive call gets a longer
string). -/
theorem C27_termination_violated (sh : K → List Char) (h2 : sh 2 = ['2']) : NeverReturns sh "A)2(C".toList := by
  suffices ∀ n, ∀ w : List Char, (∀ c ∈ w, c = 'C' ∨ c = '2') → (∀ c l, w = c :: l → c = 'C') →
      parse sh n (looping w) = .diverge by
    intro n
    exact this n [] (by simp) (by simp)
  intro n
  induction n with
  | zero => intro w _ _; rfl
  | succ n ih =>
    intro w h hh
    cases n with
    | zero =>
      -- not even the text after the opening parenthesis is parsed
      by_contra hne
      have key := looping_step sh h2 w h hh
      have w1 : '(' ∉ w := fun hc => by rcases h _ hc with h | h <;> revert h <;> decide
      have w2 : ')' ∉ w := fun hc => by rcases h _ hc with h | h <;> revert h <;> decide
      have w3 : ' ' ∉ w := fun hc => by rcases h _ hc with h | h <;> revert h <;> decide
      have c1 : (looping w).count '(' = 1 := by
        have : w.count '(' = 0 := List.count_eq_zero.2 w1
        simp [looping, List.count_append, List.count_cons, this]
      have c2 : (looping w).count ')' = 1 := by
        have : w.count ')' = 0 := List.count_eq_zero.2 w2
        simp [looping, List.count_append, List.count_cons, this]
      have hid : (looping w).idxOf ')' = 1 := by
        have : looping w = ['A'] ++ ')' :: ('2' :: (w ++ ['(', 'C'])) := by simp [looping]
        rw [this, idxOf_first]
        · rfl
        · decide
      have hop : openPos (looping w) = w.length + 3 := by
        unfold openPos
        rw [if_neg (by rw [c1]; simp)]
        have : looping w = ('A' :: ')' :: '2' :: w) ++ '(' :: ['C'] := by simp [looping]
        rw [this, idxOf_first]
        · rfl
        · simp only [List.mem_cons, not_or]; exact ⟨by decide, by decide, by decide, w1⟩
      have hin : inner (looping w) (w.length + 3) 1 = some ((looping w).drop (w.length + 3 + 1)) := by
        unfold inner
        rw [if_neg (by omega)]
      apply hne
      unfold parse
      rw [if_neg (show ¬ badStart (looping w) = true from by simp [looping, badStart]), if_neg (by rw [c1, c2]; simp),
        if_neg (by simp only [looping, List.mem_cons, List.mem_append, not_or]; exact ⟨by decide, by decide, by decide, w3, by decide⟩),
        if_pos (by rw [c1]; simp), hop, hid, hin]
      simp [parse]
    | succ n =>
      rw [looping_step sh h2 w h hh n]
      apply ih
      · intro c hc
        rcases List.mem_append.1 hc with hc | hc
        · exact h c hc
        · rcases List.mem_cons.1 hc with hc | hc
          · exact Or.inl hc
          · rcases List.mem_cons.1 hc with hc | hc
            · exact Or.inr hc
            · exact h c hc
      · intro c l hcl
        cases w with
        | nil => simp only [List.nil_append] at hcl; injection hcl with hc _; exact hc.symm
        | cons d l' => simp only [List.cons_append] at hcl; injection hcl with hc _; exact hc ▸ hh d l' rfl

/-- `CH3` in a group, etc. -/
def sulfide : Fm :=
  .group (.atom ['N'] none (.atom ['H'] (some (natNum 4)) .nil)) (some (natNum 2)) (.atom ['S'] none .nil)

/-- C27 is violated: a single character after the number of a group is lost: `(NH4)2S` has no sulphur. -/
theorem C27_last_character_violated :
    sulfide.text = "(NH4)2S".toList ∧ sulfide.atoms ['S'] = (1 : ℚ)
      ∧ Returns exampleShow sulfide.text [("H", 8), ("N", 2)] :=
  ⟨by decide +kernel, by decide +kernel, 9, by decide +kernel⟩

/-- C27 is violated: a group without number is only accepted at the end of the string. -/
theorem C27_group_without_number_violated :
    Returns exampleShow "Ca(OH)N".toList ([] : SMap String ℚ) ∧ Returns exampleShow "((OH)2)".toList ([] : SMap String ℚ)
      ∧ Returns exampleShow "Ca(OH)".toList [("Ca", 1), ("H", 1), ("O", 1)] :=
  ⟨⟨9, by decide +kernel⟩, ⟨9, by decide +kernel⟩, ⟨9, by decide +kernel⟩⟩

/-- C27 is violated: a million hydrogen atoms (written `1e+06`) become one helium atom. -/
theorem C27_large_numbers_violated : Returns exampleShow "(H500000)2".toList [("He", (1 : ℚ))] :=
  ⟨9, by decide +kernel⟩

/-- C27 is violated: malformed strings that are accepted, one of them with a negative number of atoms. -/
theorem C27_malformed_accepted_violated :
    Returns exampleShow "H-2O".toList [("H", (-2 : ℚ)), ("O", 1)] ∧ Returns exampleShow "Fe2-3".toList [("Fe", (2 : ℚ))]
      ∧ Returns exampleShow "H2e".toList [("He", (2 : ℚ))] ∧ Returns exampleShow "(H*2)".toList ([] : SMap String ℚ)
      ∧ Returns exampleShow "(H2*)2".toList [("H", (4 : ℚ))] :=
  ⟨⟨9, by decide +kernel⟩, ⟨9, by decide +kernel⟩, ⟨9, by decide +kernel⟩, ⟨9, by decide +kernel⟩, ⟨9, by decide +kernel⟩⟩

/-- C27, rejected strings: nothing, a string starting with a lower case letter or a digit, parentheses that do not
match in number, a space. -/
theorem C27_rejected (sh : K → List Char) (s : List Char)
    (h : s = [] ∨ (∃ c l, s = c :: l ∧ (c.isLower = true ∨ c.isDigit = true)) ∨ s.count '(' ≠ s.count ')' ∨ ' ' ∈ s) :
    Returns sh s ([] : SMap String K) := by
  refine ⟨1, ?_⟩
  unfold parse
  by_cases hb : badStart s = true
  · rw [if_pos hb]
  rw [if_neg hb]
  by_cases hc : s.count '(' ≠ s.count ')'
  · rw [if_pos hc]
  rw [if_neg hc]
  by_cases hs : ' ' ∈ s
  · rw [if_pos hs]
  · exfalso
    rcases h with h | ⟨c, l, h, hcl⟩ | h | h
    · subst h; exact hb rfl
    · subst h
      apply hb
      rcases hcl with h | h <;> simp [badStart, h]
    · exact hc h
    · exact hs h

/-! #### The hypotheses are met -/

/-- `Al2(SO4)3`. -/
def alum : Fm :=
  .atom "Al".toList (some (natNum 2))
    (.group (.atom ['S'] none (.atom ['O'] (some (natNum 4)) .nil)) (some (natNum 3)) .nil)

theorem alum_wf : alum.WF :=
  ⟨⟨'A', ['l'], rfl, by decide, by decide⟩, by rintro n ⟨⟩; exact natNum_valid 2, by simp,
    ⟨⟨'S', [], rfl, by decide, by decide⟩, by simp, ⟨'O', [], rfl, by decide, by decide⟩,
      by rintro n ⟨⟩; exact natNum_valid 4, trivial⟩, by rintro n ⟨⟩; exact natNum_valid 3, trivial⟩

theorem alum_served : alum.Served [] := ⟨by simp, by simp [Fm.text], trivial, trivial⟩

theorem alum_whole : alum.Whole := by
  refine ⟨by rintro n ⟨⟩; rfl, by rintro n ⟨⟩; rfl, ⟨by simp, by rintro n ⟨⟩; rfl, trivial⟩, trivial, fun x => ?_⟩
  have h3 : wholeOf (some (natNum 3)) = 3 := by decide
  have h4 : wholeOf (some (natNum 4)) = 4 := by decide
  have h1 : wholeOf none = 1 := rfl
  simp only [Fm.wholeAtoms, h1, h3, h4]
  split <;> split <;> omega

example : alum.text = "Al2(SO4)3".toList ∧ alum.wholeAtoms ['O'] = 12 ∧ alum.wholeAtoms ['S'] = 3 := by
  decide +kernel

example : ∃ m : SMap String ℚ, Returns exampleShow alum.text m ∧ m.find? "O" = some 12 := by
  obtain ⟨m, h1, h2⟩ := C27_whole_formula_partial exampleShow exampleShow_nat alum alum_wf alum_served alum_whole
  refine ⟨m, h1, ?_⟩
  have := h2 ['O']
  rw [if_pos (show alum.Occurs ['O'] from Or.inr (Or.inl (Or.inr (Or.inl rfl))))] at this
  have e : alum.wholeAtoms ['O'] = 12 := by decide +kernel
  rw [e] at this
  exact_mod_cast this

/-- `Fe0.5H2.25O`. -/
example : (Fm.atom "Fe".toList (some ⟨['0'], true, ['5']⟩) (.atom ['H'] (some ⟨['2'], true, ['2', '5']⟩)
    (.atom ['O'] none .nil))).WF :=
  ⟨⟨'F', ['e'], rfl, by decide, by decide⟩, by rintro n ⟨⟩; decide, ⟨'H', [], rfl, by decide, by decide⟩,
    by rintro n ⟨⟩; decide, ⟨'O', [], rfl, by decide, by decide⟩, by simp, trivial⟩

example : parse exampleShow 1 "Fe0.5H2.25O".toList = .ok [("Fe", 1/2), ("H", 9/4), ("O", 1)] := by decide +kernel

/-- The string `Ca(OH)(` is not well formed, but it is answered. -/
example : Opened "Ca(OH)(".toList := by
  intro p hp
  have : p = "Ca(OH)(".toList.take p.length := (List.prefix_iff_eq_take.1 hp)
  have key : ∀ n < 8, ("Ca(OH)(".toList.take n).count ')' ≤ ("Ca(OH)(".toList.take n).count '(' := by decide +kernel
  rw [this]
  have hl := hp.length_le
  exact key _ (Nat.lt_succ_of_le hl)

end Formula
end Fisx
