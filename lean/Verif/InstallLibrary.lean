import Verif.InstallExamples
import Verif.LoaderProps
import Verif.LibraryProps

/-!
# The calls of the library that install mass attenuation coefficients (properties C108 to C110)
-/

set_option linter.unusedSectionVars false

namespace Fisx
namespace Library

/-! ## Specification -/

/-- The label, in capitals, contains the text. -/
def Mentions (text : String) (label : Str) : Prop := text.toList <:+: Str.upper label

/-- The labels of the columns of coherent scattering. -/
def MentionsCoherent (label : Str) : Prop :=
  Mentions "RAYLEIGH" label ∨ (Mentions "COHERENT" label ∧ ¬ Mentions "INCOHERENT" label)

/-- `v` are the values of column `i`. -/
def IsColumn {K : Type} (rows : List (List K)) (i : Nat) (v : List K) : Prop :=
  List.Forall₂ (fun r x => r[i]? = some x) rows v

/-- `v` is the column of the last label with the property `P`, or empty when there is none. -/
def LastColumn {K : Type} (P : Str → Prop) (labels : List Str) (rows : List (List K)) (v : List K) : Prop :=
  (∃ (i : Nat) (l : Str), labels[i]? = some l ∧ P l ∧ (∀ (k : Nat) (l' : Str), i < k → labels[k]? = some l' → ¬ P l') ∧
    IsColumn rows i v) ∨
  ((∀ l ∈ labels, ¬ P l) ∧ v = [])

/-! ## Lemmas -/

theorem contains_iff (s key : Str) : EPDL97.contains s key = true ↔ key <:+: s := by
  induction s with
  | nil =>
    unfold EPDL97.contains
    rw [List.isPrefixOf_iff_prefix]
    simp
  | cons c s ih =>
    unfold EPDL97.contains
    rw [Bool.or_eq_true, ih, List.isPrefixOf_iff_prefix, List.infix_cons_iff]

variable {K : Type} [Field K] [LinearOrder K] [IsStrictOrderedRing K] [Trans K]

theorem fileColumn_ok (i : Nat) : ∀ {rows : List (List K)} {v : List K}, fileColumn i rows = .ok v → IsColumn rows i v := by
  intro rows
  induction rows with
  | nil => intro v h; cases h; exact .nil
  | cons r rs ih =>
    intro v h
    unfold fileColumn at h
    obtain ⟨x, hx, h⟩ := Outcome.bind_eq_ok.1 h
    obtain ⟨c, hc, h⟩ := Outcome.bind_eq_ok.1 h
    cases h
    refine .cons ?_ (ih hc)
    unfold vget at hx
    split at hx
    · rename_i y hy
      rw [hy]
      simpa using hx
    · cases hx

/-- One vector, through the loop. -/
theorem lastColumn_loop {P : Str → Prop} [DecidablePred P] (get : FileTable K → List K)
    (hget : ∀ l c t, get (assignColumn l c t) = if P l then c else get t)
    (hused : ∀ l, P l → usedLabel l = true) (rows : List (List K)) :
    ∀ (labels : List Str) (i : Nat) (t t' : FileTable K), columnsLoop rows labels i t = .ok t' →
      (∃ (k : Nat) (l : Str), labels[k]? = some l ∧ P l ∧ (∀ (k' : Nat) (l' : Str), k < k' → labels[k']? = some l' → ¬ P l') ∧
        IsColumn rows (i + k) (get t')) ∨
      ((∀ l ∈ labels, ¬ P l) ∧ get t' = get t) := by
  intro labels
  induction labels with
  | nil => intro i t t' h; cases h; exact Or.inr ⟨by simp, rfl⟩
  | cons l ls ih =>
    intro i t t' h
    unfold columnsLoop at h
    have hstep : ∀ t1, columnsLoop rows ls (i + 1) t1 = .ok t' →
        ((P l ∧ IsColumn rows i (get t1)) ∨ (¬ P l ∧ get t1 = get t)) →
        (∃ (k : Nat) (l' : Str), (l :: ls)[k]? = some l' ∧ P l' ∧
          (∀ (k' : Nat) (l'' : Str), k < k' → (l :: ls)[k']? = some l'' → ¬ P l'') ∧
          IsColumn rows (i + k) (get t')) ∨
        ((∀ l' ∈ l :: ls, ¬ P l') ∧ get t' = get t) := by
      intro t1 h1 hc
      rcases ih (i + 1) t1 t' h1 with ⟨k, l', h2, h3, h4, h5⟩ | ⟨h2, h3⟩
      · refine Or.inl ⟨k + 1, l', by simpa using h2, h3, ?_, by rw [show i + (k + 1) = i + 1 + k by omega]; exact h5⟩
        intro k' l'' hk hl
        cases k' with
        | zero => omega
        | succ k' => exact h4 k' l'' (by omega) (by simpa using hl)
      · rcases hc with ⟨hp, hcol⟩ | ⟨hp, hcol⟩
        · refine Or.inl ⟨0, l, rfl, hp, ?_, by rw [h3]; exact hcol⟩
          intro k' l'' hk hl
          cases k' with
          | zero => omega
          | succ k' =>
            have : ls[k']? = some l'' := by simpa using hl
            exact h2 l'' (List.mem_of_getElem? this)
        · refine Or.inr ⟨?_, h3.trans hcol⟩
          intro l' hl'
          rcases List.mem_cons.1 hl' with rfl | hl'
          · exact hp
          · exact h2 l' hl'
    split_ifs at h with hu
    · obtain ⟨c, hc, h⟩ := Outcome.bind_eq_ok.1 h
      refine hstep _ h ?_
      rw [hget]
      by_cases hp : P l
      · rw [if_pos hp]; exact Or.inl ⟨hp, fileColumn_ok i hc⟩
      · rw [if_neg hp]; exact Or.inr ⟨hp, rfl⟩
    · exact hstep _ h (Or.inr ⟨fun hp => hu (hused l hp), rfl⟩)

/-! ## The values read from a scan -/

/-- **C109** (columns) The values used for a scan are those of the last column whose label, in capitals, mentions ENERGY,
PHOTO, PAIR, COMPTON, and RAYLEIGH or COHERENT but not INCOHERENT, respectively; none if there is no such label. -/
theorem C109_columns (strtod : Str → K) (r : Specfile.Reader) (n : Nat) (t : FileTable K)
    (h : fileTable strtod r n = .ok t) :
    ∃ labels rows, Specfile.getScanLabels r n = .ok labels ∧ Specfile.getScanData strtod r n = .ok rows ∧
      LastColumn (Mentions "ENERGY") labels rows t.energy ∧ LastColumn (Mentions "PHOTO") labels rows t.photo ∧
      LastColumn (Mentions "PAIR") labels rows t.pair ∧ LastColumn (Mentions "COMPTON") labels rows t.compton ∧
      LastColumn MentionsCoherent labels rows t.coherent := by
  classical
  unfold fileTable at h
  obtain ⟨labels, h1, h⟩ := Outcome.bind_eq_ok.1 h
  obtain ⟨rows, h2, h⟩ := Outcome.bind_eq_ok.1 h
  have hc : ∀ (s : String) (l : Str), EPDL97.contains (Str.upper l) s.toList = true ↔ Mentions s l :=
    fun s l => contains_iff _ _
  have hlast : ∀ (P : Str → Prop) (get : FileTable K → List K), get ⟨[], [], [], [], []⟩ = [] →
      (∀ l c t, get (assignColumn l c t) = if P l then c else get t) → (∀ l, P l → usedLabel l = true) →
      LastColumn P labels rows (get t) := by
    intro P get h0 hg hu
    rcases lastColumn_loop get hg hu rows labels 0 _ t h with ⟨k, l, a, b, c, d⟩ | ⟨a, b⟩
    · exact Or.inl ⟨k, l, a, b, c, by rwa [Nat.zero_add] at d⟩
    · exact Or.inr ⟨a, b.trans h0⟩
  refine ⟨labels, rows, h1, h2, ?_, ?_, ?_, ?_, ?_⟩
  · refine hlast _ FileTable.energy rfl (fun l c t => ?_) (fun l hl => ?_)
    · unfold assignColumn; simp only [hc]
    · unfold usedLabel; simp only [(hc _ _).2 hl, Bool.true_or]
  · refine hlast _ FileTable.photo rfl (fun l c t => ?_) (fun l hl => ?_)
    · unfold assignColumn; simp only [hc]
    · unfold usedLabel; simp only [(hc _ _).2 hl, Bool.true_or, Bool.or_true]
  · refine hlast _ FileTable.pair rfl (fun l c t => ?_) (fun l hl => ?_)
    · unfold assignColumn; simp only [hc]
    · unfold usedLabel; simp only [(hc _ _).2 hl, Bool.true_or, Bool.or_true]
  · refine hlast _ FileTable.compton rfl (fun l c t => ?_) (fun l hl => ?_)
    · unfold assignColumn; simp only [hc]
    · unfold usedLabel; simp only [(hc _ _).2 hl, Bool.true_or, Bool.or_true]
  · have hco : ∀ l, (EPDL97.contains (Str.upper l) "RAYLEIGH".toList ||
        (EPDL97.contains (Str.upper l) "COHERENT".toList && !EPDL97.contains (Str.upper l) "INCOHERENT".toList)) = true ↔
        MentionsCoherent l := by
      intro l
      unfold MentionsCoherent
      rw [Bool.or_eq_true, Bool.and_eq_true, hc, hc, Bool.not_eq_true', ← hc "INCOHERENT" l, Bool.not_eq_true]
    refine hlast _ FileTable.coherent rfl (fun l c t => ?_) (fun l hl => ?_)
    · unfold assignColumn; simp only [hco]
    · have := (hco l).2 hl
      unfold usedLabel
      simp only
      rw [Bool.or_assoc, this, Bool.or_true]

/-! ## The library -/

/-- **C108** A call for an unknown name throws and changes nothing. -/
theorem C108_unknown (epdl : EPDL97 K) (L : Library K) (name : String) (energy photo coherent compton pair : List K)
    (h : L.dict.find? name = none) :
    L.setMu epdl name energy photo coherent compton pair = (.throw .invalidArgument, L) := by
  unfold setMu; rw [h]

/-- **C108** A call for an element has the outcome and the effect of the adaptation on the data of this element (C104 to
C107). Its name and mass, the other elements, the names, the materials and the escape cache stay as they are. -/
theorem C108_only_that_element (epdl : EPDL97 K) (L : Library K) (name : String) (energy photo coherent compton pair : List K)
    (i : Nat) (e : LibElement K) (h : L.dict.find? name = some i) (he : L.elements[i]? = some e) :
    let r := e.data.install epdl energy photo coherent compton pair
    let q := L.setMu epdl name energy photo coherent compton pair
    q.1 = r.1 ∧ q.2.elements[i]? = some { e with data := r.2 } ∧ q.2.elements.length = L.elements.length ∧
    (∀ k : Nat, k ≠ i → q.2.elements[k]? = L.elements[k]?) ∧ q.2.dict = L.dict ∧ q.2.materials = L.materials ∧
    q.2.escape = L.escape ∧ q.2.escapeOn = L.escapeOn ∧ q.2.escapeKey = L.escapeKey := by
  intro r q
  have hq : q = (r.1, { L with elements := L.elements.set i { e with data := r.2 } }) := by
    show L.setMu epdl name energy photo coherent compton pair = _
    unfold setMu
    rw [h]
    simp only
    rw [he]
  rw [hq]
  have hlt := (List.getElem?_eq_some_iff.1 he).1
  exact ⟨rfl, by simp [hlt], List.length_set, fun k hk => List.getElem?_set_ne (Ne.symm hk), rfl, rfl, rfl, rfl, rfl⟩

/-- Every element is found under its name. -/
def Named (L : Library K) : Prop := ∀ (n : Nat) (e : LibElement K), L.elements[n]? = some e → L.dict.find? e.name = some n

/-- It is so after any history of calls on an empty library. -/
theorem named_run [Trig K] (pf : String → Outcome (SMap String K)) (fuel : Nat) (on : Bool) (key : EscapeKey K)
    (ops : List (Op K)) : Named (run pf fuel (empty on key) ops) := by
  intro n e h
  rw [(agrees_run pf fuel on key ops).inv]
  unfold getElementNames
  rw [List.getElem?_map, h]
  rfl

theorem thenDo_ok' {α σ : Type} {o : Outcome α} {s : σ} {f : α → Outcome Unit × σ} (h : (thenDo o s f).1 = .ok ()) :
    ∃ a, o = .ok a ∧ (f a).1 = .ok () ∧ thenDo o s f = f a := by
  cases o with
  | ok a => exact ⟨a, rfl, h, rfl⟩
  | throw x => cases h
  | ub u => cases h
  | diverge => cases h

theorem muScans_ok (epdl : EPDL97 K) (strtod : Str → K) (r : Specfile.Reader) : ∀ (count n : Nat) (L : Library K), Named L →
    (muScans epdl strtod r count n L).1 = .ok () →
    (∀ k, n ≤ k → k < n + count → ∃ e t, L.elements[k]? = some e ∧ fileTable strtod r k = .ok t ∧
      (e.data.install epdl t.energy t.photo t.coherent t.compton t.pair).1 = .ok () ∧
      (muScans epdl strtod r count n L).2.elements[k]? =
        some { e with data := (e.data.install epdl t.energy t.photo t.coherent t.compton t.pair).2 }) ∧
    (∀ k : Nat, k < n ∨ n + count ≤ k → (muScans epdl strtod r count n L).2.elements[k]? = L.elements[k]?) ∧
    (muScans epdl strtod r count n L).2.dict = L.dict ∧ (muScans epdl strtod r count n L).2.materials = L.materials ∧
    (muScans epdl strtod r count n L).2.escape = L.escape := by
  intro count
  induction count with
  | zero =>
    intro n L _ _
    exact ⟨fun k h1 h2 => by omega, fun _ _ => rfl, rfl, rfl, rfl⟩
  | succ count ih =>
    intro n L hN h
    unfold muScans at h ⊢
    obtain ⟨t, ht, h, e1⟩ := thenDo_ok' h
    rw [e1]
    obtain ⟨e, he, h, e2⟩ := thenDo_ok' h
    rw [e2]
    simp only at h ⊢
    obtain ⟨u, hu, h, e3⟩ := thenDo_ok' h
    rw [e3]
    have he' : L.elements[n]? = some e := by
      unfold vget at he
      split at he
      · rename_i y hy; rw [hy]; simpa using he
      · cases he
    obtain ⟨q1, q2, q3, q4, q5, q6, q7, _, _⟩ := C108_only_that_element epdl L e.name t.energy t.photo t.coherent t.compton
      t.pair n e (hN n e he') he'
    set q := L.setMu epdl e.name t.energy t.photo t.coherent t.compton t.pair with hq
    have hN' : Named q.2 := by
      intro m e' hm
      rw [q5]
      by_cases hmn : m = n
      · subst hmn
        rw [q2] at hm
        cases hm
        exact hN m e he'
      · rw [q4 m hmn] at hm
        exact hN m e' hm
    obtain ⟨a, b, c, d, f⟩ := ih (n + 1) q.2 hN' h
    refine ⟨?_, ?_, by rw [c, q5], by rw [d, q6], by rw [f, q7]⟩
    · intro k h1 h2
      by_cases hkn : k = n
      · subst hkn
        refine ⟨e, t, he', ht, by rw [← q1, hu], ?_⟩
        rw [b k (by omega), q2]
      · obtain ⟨e', t', g1, g2, g3, g4⟩ := a k (by omega) (by omega)
        exact ⟨e', t', by rw [← q4 k hkn]; exact g1, g2, g3, g4⟩
    · intro k hk
      rw [b k (by omega), q4 k (by omega)]

/-- **C109** A file without scans, in particular one that cannot be opened, is refused and changes nothing. -/
theorem C109_no_scans (epdl : EPDL97 K) (strtod : Str → K) (L : Library K) (text : Option Str)
    (h : ∀ line ∈ (Specfile.File.ofText text).lines, Specfile.isScan line = false) :
    setMuFile epdl strtod L text = (.throw .ioFailure, L) := by
  unfold setMuFile
  simp only
  rw [if_pos]
  rw [Specfile.C39_count, List.filter_eq_nil_iff.2 (by simpa using h)]
  simp

/-- **C109** After the call returned, the element at position `k` has the coefficients adapted from scan `k` of the file, for
each scan of the file; everything else is as it was. -/
theorem C109_scans (epdl : EPDL97 K) (strtod : Str → K) (L : Library K) (text : Option Str) (hN : Named L)
    (h : (setMuFile epdl strtod L text).1 = .ok ()) :
    let count := ((Specfile.File.ofText text).lines.filter Specfile.isScan).length
    let r := Specfile.setFileName (Specfile.File.ofText text)
    let L' := (setMuFile epdl strtod L text).2
    1 ≤ count ∧ count ≤ L.elements.length ∧
    (∀ k, k < count → ∃ e t, L.elements[k]? = some e ∧ fileTable strtod r k = .ok t ∧
      (e.data.install epdl t.energy t.photo t.coherent t.compton t.pair).1 = .ok () ∧
      L'.elements[k]? = some { e with data := (e.data.install epdl t.energy t.photo t.coherent t.compton t.pair).2 }) ∧
    (∀ k : Nat, count ≤ k → L'.elements[k]? = L.elements[k]?) ∧ L'.dict = L.dict ∧ L'.materials = L.materials ∧
    L'.escape = L.escape := by
  intro count r L'
  have hcount : Specfile.getNumberOfScans r = count := Specfile.C39_count _
  have hrun : setMuFile epdl strtod L text = muScans epdl strtod r count 0 L ∧ 1 ≤ count := by
    unfold setMuFile at h ⊢
    simp only at h ⊢
    rw [show Specfile.getNumberOfScans (Specfile.setFileName (Specfile.File.ofText text)) = count from hcount] at h ⊢
    split_ifs at h ⊢ with hc
    exact ⟨rfl, by omega⟩
  have hL : L' = (muScans epdl strtod r count 0 L).2 := by
    show (setMuFile epdl strtod L text).2 = _
    rw [hrun.1]
  rw [hrun.1] at h
  obtain ⟨a, b, c, d, f⟩ := muScans_ok epdl strtod r count 0 L hN h
  refine ⟨hrun.2, ?_, ?_, ?_, by rw [hL, c], by rw [hL, d], by rw [hL, f]⟩
  · obtain ⟨e, _, he, _⟩ := a (count - 1) (by omega) (by omega)
    have := (List.getElem?_eq_some_iff.1 he).1
    omega
  · intro k hk
    rw [hL]
    exact a k (by omega) (by omega)
  · intro k hk
    rw [hL]
    exact b k (by omega)

/-- **C110** violated: a file with more scans than there are elements makes the call read past the list of elements, after
it has replaced the coefficients of all of them, when the scan of the missing element can be read. -/
theorem C110_more_scans_violated (epdl : EPDL97 K) (strtod : Str → K) (L : Library K) (r : Specfile.Reader) (hN : Named L) :
    ∀ (count n : Nat), n ≤ L.elements.length → L.elements.length < n + count →
    (∀ (k : Nat) (e : LibElement K), n ≤ k → L.elements[k]? = some e → ∃ t, fileTable strtod r k = .ok t ∧
      (e.data.install epdl t.energy t.photo t.coherent t.compton t.pair).1 = .ok ()) →
    (∃ t, fileTable strtod r L.elements.length = .ok t) →
    (muScans epdl strtod r count n L).1 = .ub .outOfBounds := by
  intro count
  induction count generalizing L with
  | zero => intro n h1 h2; omega
  | succ count ih =>
    intro n h1 h2 h3 h4
    unfold muScans
    by_cases hn : n = L.elements.length
    · subst hn
      obtain ⟨t, ht⟩ := h4
      rw [ht]
      simp only [thenDo]
      have : vget L.elements L.elements.length = .ub .outOfBounds := by
        unfold vget
        rw [List.getElem?_eq_none (le_refl _)]
      rw [this]
    · have hlt : n < L.elements.length := by omega
      obtain ⟨t, ht, hi⟩ := h3 n L.elements[n] (le_refl _) (List.getElem?_eq_getElem hlt)
      have he' := List.getElem?_eq_getElem hlt
      rw [ht]
      simp only [thenDo]
      rw [vget_lt _ n hlt]
      simp only
      obtain ⟨q1, q2, q3, q4, q5, q6, q7, _, _⟩ := C108_only_that_element epdl L L.elements[n].name t.energy t.photo t.coherent
        t.compton t.pair n L.elements[n] (hN n _ he') he'
      rw [q1, hi]
      simp only
      have hN' : Named (L.setMu epdl L.elements[n].name t.energy t.photo t.coherent t.compton t.pair).2 := by
        intro m e' hm
        rw [q5]
        by_cases hmn : m = n
        · subst hmn
          rw [q2, Option.some.injEq] at hm
          rw [← hm]
          exact hN m (L.elements[m]) he'
        · rw [q4 m hmn] at hm
          exact hN m e' hm
      refine ih _ hN' (n + 1) (by omega) (by omega) ?_ (by rw [q3]; exact h4)
      intro k e' hk he
      rw [q4 k (by omega)] at he
      exact h3 k e' (by omega) he

/-! ## Examples -/

section examples

attribute [local instance] Element.exampleTrans

/-- The numbers of the example file. -/
def muNumber (s : Str) : ℚ := (s.foldl (fun n c => if c.isDigit then 10 * n + (c.toNat - '0'.toNat) else n) 0 : Nat)

/-- A library of one element. -/
def muLibrary : Library ℚ :=
  { dict := [("Xx", 0)], elements := [{ name := "Xx", mass := 10, data := Element.exampleEl }], materials := [],
    escapeOn := false, escape := [],
    escapeKey := { composition := [], energyThreshold := 0, intensityThreshold := 0, nThreshold := 0, alphaIn := 0,
                   thickness := 0 } }

/-- A file with one scan. -/
def muFile : Str :=
  "#S 1 Xx\n#L Energy  Rayleigh  Incoherent  Compton  Pair  Photoelectric\n4 8 1 9 0 26\n5 8 1 9 0 13\n\n".toList

example : Named muLibrary := by
  intro n e h
  cases n with
  | zero => cases h; rfl
  | succ n => simp [muLibrary] at h

/-- The call returns (hypothesis of `C109_scans`); the values are found in the table of the element. -/
example : (setMuFile Element.exampleLib muNumber muLibrary (some muFile)).1 = .ok () ∧
    ((setMuFile Element.exampleLib muNumber muLibrary (some muFile)).2.elements.map (fun e => e.data.muEnergy))
      = [[1, 2, 4, 5]] ∧
    ((setMuFile Element.exampleLib muNumber muLibrary (some muFile)).2.elements.map (fun e => e.data.mu))
      = [some { coherent := [4, 4, 8, 8], compton := [3, 3, 9, 9], pair := [0, 0, 0, 0], photoelectric := [3, 3, 26, 13],
                total := [10, 10, 43, 30] }] := by
  refine ⟨by decide +kernel, by decide +kernel, by decide +kernel⟩

/-- **C110** (witness) The same scan twice, for the library of one element: the call reads past the elements. -/
theorem C110_witness_violated : (setMuFile Element.exampleLib muNumber muLibrary (some (muFile ++ muFile))).1
    = .ub .outOfBounds := by decide +kernel

/-- **C110** (witness) A file without pair column: an empty vector is read. -/
theorem C110_no_pair_violated : (setMuFile Element.exampleLib muNumber muLibrary
    (some "#S 1 Xx\n#L Energy  Rayleigh  Compton  Photoelectric\n4 8 9 26\n5 8 9 13\n\n".toList)).1 = .ub .outOfBounds := by
  decide +kernel

end examples

end Library
end Fisx
