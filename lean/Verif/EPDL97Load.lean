import Verif.EPDL97Props
import Verif.InstallLibrary

/-!
# What EPDL97 returns is what its files contain (properties C111 and C112)
-/

set_option linter.unusedSectionVars false

namespace Fisx
namespace EPDL97

/-! ## Specification -/

/-- The shell named by a label of the file of binding energies: K if it begins with K; else its first three characters if
the fourth one is an opening parenthesis, or its first two. -/
def NamesShell (label s : Str) : Prop :=
  (label.head? = some 'K' ∧ s = ['K']) ∨
  (label.head? ≠ some 'K' ∧ ((label[3]? = some '(' ∧ s = label.take 3) ∨ (label[3]? ≠ some '(' ∧ s = label.take 2)))

/-- A label names a quantity: in capitals it contains the name (without blank) and, for "coherent", not INCOHERENT; names
of one or two letters must be at its beginning. -/
def NamesQuantity (want : String) (label : Str) : Prop :=
  let text := Str.upper label
  let name := if want = "all other" then "ALLOTHER".toList else Str.upper want.toList
  name <:+: text ∧ (want = "coherent" → ¬ "INCOHERENT".toList <:+: text) ∧ (name.length < 3 → name <+: text)

/-- Label number `i` is the first one that names a quantity. -/
def ColumnFor (labels : List Str) (want : String) (i : Nat) : Prop :=
  (∃ label, labels[i]? = some label ∧ NamesQuantity want label) ∧
  ∀ (k : Nat) (label : Str), k < i → labels[k]? = some label → ¬ NamesQuantity want label

/-- The fifteen quantities of a file of cross sections. -/
def quantities : List String :=
  ["energy", "compton", "coherent", "photoelectric", "total", "K", "L1", "L2", "L3", "M1", "M2", "M3", "M4", "M5", "all other"]

/-- The partial coefficient of the outer shells, given those of the file for the element of number `z`. -/
def outerShells {K : Type} [Field K] [LinearOrder K] (z : Int) (total compton coherent other : K) (inner : List K) : K :=
  let photo := total - compton - coherent
  if 0 < photo then (if 0 < other ∧ 18 < z then max 0 (photo - inner.sum) else 0) else max 0 other

variable {K : Type} [Field K] [LinearOrder K] [IsStrictOrderedRing K]

/-! ## Binding energies -/

theorem bindingKey_names (label s : Str) : bindingKey label = s ↔ NamesShell label s := by
  unfold bindingKey NamesShell
  have h1 : label.take 1 = ['K'] ↔ label.head? = some 'K' := by
    cases label with
    | nil => simp
    | cons c r => simp
  have h3 : (label.drop 3).take 1 = ['('] ↔ label[3]? = some '(' := by
    rcases label with _ | ⟨a, _ | ⟨b, _ | ⟨c, _ | ⟨d, r⟩⟩⟩⟩ <;> simp
  by_cases hk : label.head? = some 'K'
  · rw [if_pos (h1.2 hk)]
    simp [hk, eq_comm]
  · rw [if_neg (fun h => hk (h1.1 h))]
    by_cases hl : label.length < 3
    · rw [if_pos hl]
      have : label[3]? ≠ some '(' := by rw [List.getElem?_eq_none (by omega)]; simp
      simp [hk, this, eq_comm]
    · rw [if_neg hl]
      by_cases hp : label[3]? = some '('
      · rw [if_pos (h3.2 hp)]
        simp [hk, hp, eq_comm]
      · rw [if_neg (fun h => hp (h3.1 h))]
        simp [hk, hp, eq_comm]

theorem bindingRow_find : ∀ (labels : List Str) (row : List K) (acc b : SMap Str K), bindingRow labels row acc = .ok b →
    labels.length ≤ row.length ∧ ∀ s v, b.find? s = some v ↔
      (∃ (k : Nat) (label : Str), labels[k]? = some label ∧ NamesShell label s ∧ row[k]? = some v ∧
        ∀ (k' : Nat) (label' : Str), k < k' → labels[k']? = some label' → ¬ NamesShell label' s) ∨
      ((∀ label ∈ labels, ¬ NamesShell label s) ∧ acc.find? s = some v) := by
  intro labels
  induction labels with
  | nil =>
    intro row acc b h
    unfold bindingRow at h
    cases h
    exact ⟨Nat.zero_le _, fun s v => by simp⟩
  | cons l ls ih =>
    intro row acc b h
    cases row with
    | nil => simp [bindingRow] at h
    | cons x xs =>
      unfold bindingRow at h
      obtain ⟨h1, h2⟩ := ih xs _ b h
      refine ⟨by simpa using h1, fun s v => ?_⟩
      rw [h2, SMap.find?_insert]
      constructor
      · rintro (⟨k, label, a1, a2, a3, a4⟩ | ⟨a1, a2⟩)
        · refine Or.inl ⟨k + 1, label, by simpa using a1, a2, by simpa using a3, ?_⟩
          intro k' label' hk hl
          cases k' with
          | zero => omega
          | succ k' => exact a4 k' label' (by omega) (by simpa using hl)
        · split_ifs at a2 with hs
          · refine Or.inl ⟨0, l, rfl, (bindingKey_names l s).1 hs, by simpa using a2, ?_⟩
            intro k' label' hk hl
            cases k' with
            | zero => omega
            | succ k' => exact a1 label' (List.mem_of_getElem? (by simpa using hl : ls[k']? = some label'))
          · refine Or.inr ⟨?_, a2⟩
            intro label hl
            rcases List.mem_cons.1 hl with rfl | hl
            · exact fun hn => hs ((bindingKey_names _ _).2 hn)
            · exact a1 label hl
      · rintro (⟨k, label, a1, a2, a3, a4⟩ | ⟨a1, a2⟩)
        · cases k with
          | zero =>
            simp only [List.getElem?_cons_zero, Option.some.injEq] at a1 a3
            subst a1 a3
            refine Or.inr ⟨?_, by rw [if_pos ((bindingKey_names _ _).2 a2)]⟩
            intro label' hl hn
            obtain ⟨k', hk'⟩ := List.mem_iff_getElem?.1 hl
            exact a4 (k' + 1) label' (by omega) (by simpa using hk') hn
          | succ k =>
            refine Or.inl ⟨k, label, by simpa using a1, a2, by simpa using a3, ?_⟩
            intro k' label' hk hl
            exact a4 (k' + 1) label' (by omega) (by simpa using hl)
        · refine Or.inr ⟨fun label hl => a1 label (List.mem_cons_of_mem _ hl), ?_⟩
          rw [if_neg (fun hs => a1 l List.mem_cons_self ((bindingKey_names _ _).1 hs))]
          exact a2

theorem bindingTable_get (labels : List Str) : ∀ (rows : List (List K)) (t : List (SMap Str K)),
    bindingTable labels rows [] = .ok t → t.length = rows.length ∧ ∀ (i : Nat) (row : List K), rows[i]? = some row →
      ∃ b, t[i]? = some b ∧ bindingRow (labels.drop 1) (row.drop 1) [] = .ok b := by
  intro rows
  induction rows with
  | nil => intro t h; cases h; exact ⟨rfl, fun i row h => by simp at h⟩
  | cons r rest ih =>
    intro t h
    unfold bindingTable at h
    obtain ⟨m, hm, h⟩ := Outcome.bind_eq_ok.1 h
    obtain ⟨t', ht', h⟩ := Outcome.bind_eq_ok.1 h
    cases h
    obtain ⟨h1, h2⟩ := ih t' ht'
    refine ⟨by simp [h1], fun i row hi => ?_⟩
    cases i with
    | zero =>
      simp only [List.getElem?_cons_zero, Option.some.injEq] at hi
      subst hi
      exact ⟨m, rfl, hm⟩
    | succ i => exact h2 i row (by simpa using hi)

/-- The parts of a successful load. -/
theorem load_parts {e : EPDL97 K} {bf cf : Option (List (Scan K))} (h : (setDataDirectory e bf cf).1 = .ok ()) :
    ∃ scan r t scans, bf = some [scan] ∧ scan.rows.head? = some r ∧ r.length = scan.labels.length ∧
      bindingTable scan.labels scan.rows [] = .ok t ∧ cf = some scans ∧
      (loadCrossSections { (new : EPDL97 K) with binding := t, initialized := true } (some scans)).1 = .ok () ∧
      (setDataDirectory e bf cf).2 =
        { (loadCrossSections { (new : EPDL97 K) with binding := t, initialized := true } (some scans)).2 with
          initialized := true } := by
  unfold setDataDirectory at h ⊢
  simp only at h ⊢
  cases hb : (loadBindingEnergies (new : EPDL97 K) bf).1 with
  | ok u =>
    rw [hb] at h
    simp only at h ⊢
    cases hc : (loadCrossSections (loadBindingEnergies (new : EPDL97 K) bf).2 cf).1 with
    | ok u =>
      simp only
      unfold loadBindingEnergies at hb hc ⊢
      cases bf with
      | none => cases hb
      | some l =>
        rcases l with _ | ⟨scan, _ | ⟨s2, l⟩⟩
        · cases hb
        · simp only at hb hc ⊢
          cases hr : scan.rows with
          | nil => rw [hr] at hb; cases hb
          | cons r rs =>
            rw [hr] at hb hc
            simp only at hb hc ⊢
            by_cases hl : r.length ≠ scan.labels.length
            · rw [if_pos hl] at hb; cases hb
            · rw [if_neg hl] at hb hc ⊢
              have hnb : (new : EPDL97 K).binding = [] := rfl
              rw [hnb] at hb hc ⊢
              cases ht : bindingTable scan.labels (r :: rs) [] with
              | ok t =>
                rw [ht] at hc
                simp only at hc ⊢
                cases cf with
                | none => cases hc
                | some scans =>
                  exact ⟨scan, r, t, scans, rfl, by rw [hr]; rfl, not_not.1 hl, by rw [hr]; exact ht, rfl, hc, rfl⟩
              | throw x => rw [ht] at hb; cases hb
              | ub x => rw [ht] at hb; cases hb
              | diverge => rw [ht] at hb; cases hb
        · cases hb
    | throw x => rw [hc] at h; cases h
    | ub x => rw [hc] at h; cases h
    | diverge => rw [hc] at h; cases h
  | throw x => rw [hb] at h; cases h
  | ub x => rw [hb] at h; cases h
  | diverge => rw [hb] at h; cases h

theorem loadCross_binding (e : EPDL97 K) (cf : Option (List (Scan K))) : (loadCrossSections e cf).2.binding = e.binding := by
  unfold loadCrossSections
  cases cf with
  | none => rfl
  | some scans =>
    simp only
    split
    · rfl
    · split
      · rfl
      · cases (findLabels ((scans.head?.map Scan.labels).getD []) interestingLabels e.labelIndex).1 <;> rfl

/-- **C111** After the files have been loaded, the binding energies returned for the element of number `z` (the last one for
higher numbers) are those of row `z` of the file: the one of a shell is in the last column whose label names it; the first
column is not used. -/
theorem C111_binding_energies (e : EPDL97 K) (bf cf : Option (List (Scan K))) (h : (setDataDirectory e bf cf).1 = .ok ())
    (z : Int) (hz : 1 ≤ z) :
    ∃ scan row b, bf = some [scan] ∧ scan.rows[min z.toNat scan.rows.length - 1]? = some row ∧
      getBindingEnergies (setDataDirectory e bf cf).2 z = .ok b ∧
      ∀ s v, b.find? s = some v ↔ ∃ (k : Nat) (label : Str), 1 ≤ k ∧ scan.labels[k]? = some label ∧ NamesShell label s ∧
        row[k]? = some v ∧ ∀ (k' : Nat) (label' : Str), k < k' → scan.labels[k']? = some label' → ¬ NamesShell label' s := by
  obtain ⟨scan, r, t, scans, hbf, hr, hrl, ht, hcf, hc, hres⟩ := load_parts h
  obtain ⟨htl, htg⟩ := bindingTable_get _ _ _ ht
  have hpos : 0 < scan.rows.length := by
    cases hrows : scan.rows with
    | nil => rw [hrows] at hr; cases hr
    | cons a b => simp
  have hi : min z.toNat scan.rows.length - 1 < scan.rows.length := by omega
  obtain ⟨b, hb, hrow⟩ := htg _ _ (List.getElem?_eq_getElem hi)
  refine ⟨scan, scan.rows[min z.toNat scan.rows.length - 1], b, hbf, List.getElem?_eq_getElem hi, ?_, ?_⟩
  · rw [hres]
    unfold getBindingEnergies
    rw [if_neg (by omega)]
    simp only
    rw [loadCross_binding]
    simp only
    have hv : ∀ i : Int, i = ((min z.toNat scan.rows.length - 1 : Nat) : Int) → vgetI t i = .ok b := by
      intro i hi'
      rw [hi', Element.vgetI_nat t _ (by rw [htl]; exact hi)]
      have := (List.getElem?_eq_some_iff.1 hb).2
      rw [← this]
    split_ifs with hz'
    · exact hv _ (by rw [htl] at hz' ⊢; omega)
    · exact hv _ (by rw [htl] at hz'; omega)
  · intro s v
    rw [(bindingRow_find _ _ _ _ hrow).2 s v]
    constructor
    · rintro (⟨k, label, a1, a2, a3, a4⟩ | ⟨_, a⟩)
      · refine ⟨k + 1, label, by omega, by rw [← a1, List.getElem?_drop, Nat.add_comm], a2,
          by rw [← a3, List.getElem?_drop, Nat.add_comm], ?_⟩
        intro k' label' hk hl
        refine a4 (k' - 1) label' (by omega) ?_
        rw [List.getElem?_drop, ← hl]
        congr 1
        omega
      · cases a
    · rintro ⟨k, label, h1, a1, a2, a3, a4⟩
      refine Or.inl ⟨k - 1, label, ?_, a2, ?_, ?_⟩
      · rw [List.getElem?_drop, ← a1]; congr 1; omega
      · rw [List.getElem?_drop, ← a3]; congr 1; omega
      · intro k' label' hk hl
        refine a4 (k' + 1) label' (by omega) ?_
        rw [List.getElem?_drop] at hl
        rw [← hl]; congr 1; omega

/-! ## Cross sections -/

theorem labelMatches_iff {want : String} (hw : want ∈ quantities) (label : Str) :
    labelMatches (searchKey want.toList) (Str.upper label) = true ↔ NamesQuantity want label := by
  have hkey : searchKey want.toList = (if want = "all other" then "ALLOTHER".toList else Str.upper want.toList) ∧
      ((if want = "all other" then "ALLOTHER".toList else Str.upper want.toList) = "COHERENT".toList ↔ want = "coherent") := by
    revert hw
    revert want
    decide +kernel
  unfold labelMatches NamesQuantity
  simp only
  rw [hkey.1, Bool.and_eq_true, Library.contains_iff]
  set name := (if want = "all other" then "ALLOTHER".toList else Str.upper want.toList) with hname
  by_cases hc : want = "coherent"
  · have hn := hkey.2.2 hc
    rw [if_pos hn, Bool.not_eq_true', ← Bool.not_eq_true, Library.contains_iff]
    have : ¬ name.length < 3 := by rw [hn]; decide
    simp [hc, this]
  · rw [if_neg (fun h => hc (hkey.2.1 h))]
    by_cases hl : name.length < 3
    · rw [if_pos hl, decide_eq_true_eq, ← List.prefix_iff_eq_take]
      simp [hc, hl]
    · rw [if_neg hl]
      simp [hc, hl]

theorem labelIndexOf_column {labels : List Str} {want : String} (hw : want ∈ quantities)
    (h : labelIndexOf labels want.toList ≠ -1) : ∃ i : Nat, labelIndexOf labels want.toList = i ∧ ColumnFor labels want i := by
  unfold labelIndexOf at h ⊢
  cases hf : labels.findIdx? (fun l => labelMatches (searchKey want.toList) (Str.upper l)) with
  | none => rw [hf] at h; simp at h
  | some n =>
    refine ⟨n, rfl, ?_⟩
    obtain ⟨hn, h1, h2⟩ := List.findIdx?_eq_some_iff_getElem.1 hf
    refine ⟨⟨labels[n], List.getElem?_eq_getElem hn, (labelMatches_iff hw _).1 h1⟩, ?_⟩
    intro k label hk hl hq
    have hkn : k < labels.length := by omega
    have := h2 k hk
    rw [List.getElem?_eq_getElem hkn] at hl
    have hl : labels[k] = label := by simpa using hl
    rw [hl, (labelMatches_iff hw _).2 hq] at this
    simp at this

theorem findLabels_ok (labels : List Str) : ∀ (ws : List Str) (acc : SMap Str Int), ws.Nodup →
    (findLabels labels ws acc).1 = .ok () →
    ∀ w ∈ ws, (findLabels labels ws acc).2.find? w = some (labelIndexOf labels w) ∧ labelIndexOf labels w ≠ -1 := by
  intro ws
  induction ws with
  | nil => intro acc _ _ w hw; simp at hw
  | cons a rest ih =>
    intro acc hnd h w hw
    obtain ⟨ha, hnd'⟩ := List.nodup_cons.1 hnd
    unfold findLabels at h ⊢
    simp only at h ⊢
    split_ifs at h ⊢ with hc
    rcases List.mem_cons.1 hw with rfl | hw
    · rw [findLabels_keys _ _ _ _ ha, SMap.find?_insert, if_pos rfl]
      exact ⟨rfl, hc⟩
    · exact ih _ hnd' h w hw

theorem vgetI_ok {α : Type} {v : List α} {i : Int} {a : α} (h : vgetI v i = .ok a) : 0 ≤ i ∧ v[i.toNat]? = some a := by
  unfold vgetI at h
  split_ifs at h with hi
  refine ⟨not_lt.1 hi, ?_⟩
  unfold vget at h
  split at h
  · rename_i y hy; rw [hy]; simpa using h
  · cases h

theorem vsetI_ok {α : Type} {v v' : List α} {i : Int} {a : α} (h : vsetI v i a = .ok v') :
    0 ≤ i ∧ i.toNat < v.length ∧ v' = v.set i.toNat a := by
  unfold vsetI at h
  split_ifs at h with hi
  simp only [not_or, not_lt, not_le] at hi
  refine ⟨hi.1, by omega, ?_⟩
  simpa using h.symm

/-- The value of a row in the column of a quantity. -/
def rowVal (L : SMap Str Int) (row : List K) (w : String) : K := row.getD (idxOf L w).toNat 0

theorem rowVal_of {L : SMap Str Int} {row : List K} {w : String} {v : K} (h : vgetI row (idxOf L w) = .ok v) :
    rowVal L row w = v := by
  unfold rowVal
  rw [List.getD_eq_getElem?_getD, (vgetI_ok h).2]
  rfl

theorem rowVal_set {L : SMap Str Int} {row : List K} {w w' : String} {v : K} (h : (idxOf L w).toNat ≠ (idxOf L w').toNat) :
    rowVal L (row.set (idxOf L w).toNat v) w' = rowVal L row w' := by
  unfold rowVal
  rw [List.getD_eq_getElem?_getD, List.getElem?_set_ne h, ← List.getD_eq_getElem?_getD]

/-- The names of the shells but the outer ones. -/
def innerShells : List String := ["K", "L1", "L2", "L3", "M1", "M2", "M3", "M4", "M5"]

theorem recalcRow_length {L : SMap Str Int} {i : Nat} {row : List K} {a : K × List K} (h : recalcRow L i row = .ok a) :
    a.2.length = row.length := by
  unfold recalcRow at h
  obtain ⟨en, hen, h⟩ := Outcome.bind_eq_ok.1 h
  obtain ⟨t, ht, h⟩ := Outcome.bind_eq_ok.1 h
  obtain ⟨c, hc, h⟩ := Outcome.bind_eq_ok.1 h
  obtain ⟨co, hco, h⟩ := Outcome.bind_eq_ok.1 h
  obtain ⟨r1, h1, h⟩ := Outcome.bind_eq_ok.1 h
  obtain ⟨r2, h2, h⟩ := Outcome.bind_eq_ok.1 h
  obtain ⟨r3, h3, h⟩ := Outcome.bind_eq_ok.1 h
  have h : (en, r3) = a := by simpa using h
  subst h
  simp only
  have hset : ∀ {u u' : List K} {j : Int} {v : K}, vsetI u j v = .ok u' → u'.length = u.length := by
    intro u u' j v hu
    rw [(vsetI_ok hu).2.2, List.length_set]
  have l3 : r3.length = r2.length := by
    unfold clampOther at h3
    obtain ⟨o, ho, h3⟩ := Outcome.bind_eq_ok.1 h3
    split_ifs at h3
    · exact hset h3
    · have h3 : r2 = r3 := by simpa using h3
      rw [h3]
  have l2 : r2.length = r1.length := by
    unfold recalcPhoto at h2
    obtain ⟨p, hp, h2⟩ := Outcome.bind_eq_ok.1 h2
    split_ifs at h2
    · unfold recalcOther at h2
      obtain ⟨o, ho, h2⟩ := Outcome.bind_eq_ok.1 h2
      split_ifs at h2
      · iterate 10 obtain ⟨_, _, h2⟩ := Outcome.bind_eq_ok.1 h2
        exact hset h2
      · exact hset h2
    · exact hset h2
  rw [l3, l2, hset h1]

/-- One row of the file. -/
theorem recalcRow_ok {L : SMap Str Int} {i : Nat} {row : List K} {a : K × List K} (h : recalcRow L i row = .ok a)
    (hd : ∀ w ∈ quantities, ∀ w' ∈ quantities, w ≠ w' → (idxOf L w).toNat ≠ (idxOf L w').toNat) :
    a.1 = rowVal L row "energy" ∧
    (∀ w ∈ quantities, w ≠ "photoelectric" → w ≠ "all other" → rowVal L a.2 w = rowVal L row w) ∧
    rowVal L a.2 "all other" = outerShells (i + 1) (rowVal L row "total") (rowVal L row "compton") (rowVal L row "coherent")
      (rowVal L row "all other") (innerShells.map (rowVal L row)) := by
  unfold recalcRow at h
  obtain ⟨en, hen, h⟩ := Outcome.bind_eq_ok.1 h
  obtain ⟨t, ht, h⟩ := Outcome.bind_eq_ok.1 h
  obtain ⟨c, hc, h⟩ := Outcome.bind_eq_ok.1 h
  obtain ⟨co, hco, h⟩ := Outcome.bind_eq_ok.1 h
  obtain ⟨r1, h1, h⟩ := Outcome.bind_eq_ok.1 h
  obtain ⟨r2, h2, h⟩ := Outcome.bind_eq_ok.1 h
  obtain ⟨r3, h3, h⟩ := Outcome.bind_eq_ok.1 h
  have h : (en, r3) = a := by simpa using h
  subst h
  simp only
  rw [rowVal_of ht, rowVal_of hc, rowVal_of hco]
  obtain ⟨p0, pl, pe⟩ := vsetI_ok h1
  have hp1 : rowVal L r1 "photoelectric" = t - c - co := by
    rw [pe]; unfold rowVal; rw [List.getD_eq_getElem?_getD, List.getElem?_set_self pl]; rfl
  have hk1 : ∀ w ∈ quantities, w ≠ "photoelectric" → rowVal L r1 w = rowVal L row w := by
    intro w hw hne
    rw [pe]
    exact rowVal_set (hd _ (by decide) _ hw (Ne.symm hne))
  -- the recalculation of the outer shells
  have hset : ∀ {u u' : List K} {v : K}, vsetI u (idxOf L "all other") v = .ok u' →
      rowVal L u' "all other" = v ∧ ∀ w ∈ quantities, w ≠ "all other" → rowVal L u' w = rowVal L u w := by
    intro u u' v hu
    obtain ⟨_, ul, ue⟩ := vsetI_ok hu
    refine ⟨by rw [ue]; unfold rowVal; rw [List.getD_eq_getElem?_getD, List.getElem?_set_self ul]; rfl, ?_⟩
    intro w hw hne
    rw [ue]
    exact rowVal_set (hd _ (by decide) _ hw (Ne.symm hne))
  have hr2 : (∀ w ∈ quantities, w ≠ "photoelectric" → w ≠ "all other" → rowVal L r2 w = rowVal L r1 w) ∧
      rowVal L r2 "all other" = if 0 < t - c - co then (if 0 < rowVal L row "all other" ∧ 17 < i then
        t - c - co - (innerShells.map (rowVal L row)).sum else 0) else rowVal L row "all other" := by
    unfold recalcPhoto at h2
    obtain ⟨p, hp, h2⟩ := Outcome.bind_eq_ok.1 h2
    have hpv : p = t - c - co := by rw [← rowVal_of hp, hp1]
    subst hpv
    split_ifs at h2 with hpos
    · rw [if_pos hpos]
      unfold recalcOther at h2
      obtain ⟨o, ho, h2⟩ := Outcome.bind_eq_ok.1 h2
      have hov : o = rowVal L row "all other" := by rw [← rowVal_of ho, hk1 _ (by decide) (by decide)]
      subst hov
      split_ifs at h2 with hc2
      · rw [if_pos hc2]
        obtain ⟨p, hp', h2⟩ := Outcome.bind_eq_ok.1 h2
        obtain ⟨k, hk, h2⟩ := Outcome.bind_eq_ok.1 h2
        obtain ⟨l1, hl1, h2⟩ := Outcome.bind_eq_ok.1 h2
        obtain ⟨l2, hl2, h2⟩ := Outcome.bind_eq_ok.1 h2
        obtain ⟨l3, hl3, h2⟩ := Outcome.bind_eq_ok.1 h2
        obtain ⟨m1, hm1, h2⟩ := Outcome.bind_eq_ok.1 h2
        obtain ⟨m2, hm2, h2⟩ := Outcome.bind_eq_ok.1 h2
        obtain ⟨m3, hm3, h2⟩ := Outcome.bind_eq_ok.1 h2
        obtain ⟨m4, hm4, h2⟩ := Outcome.bind_eq_ok.1 h2
        obtain ⟨m5, hm5, h2⟩ := Outcome.bind_eq_ok.1 h2
        obtain ⟨s1, s2⟩ := hset h2
        refine ⟨fun w hw _ hne => s2 w hw hne, ?_⟩
        rw [s1, ← rowVal_of hp', ← rowVal_of hk, ← rowVal_of hl1, ← rowVal_of hl2, ← rowVal_of hl3, ← rowVal_of hm1,
          ← rowVal_of hm2, ← rowVal_of hm3, ← rowVal_of hm4, ← rowVal_of hm5, hp1, hk1 "K" (by decide) (by decide),
          hk1 "L1" (by decide) (by decide), hk1 "L2" (by decide) (by decide), hk1 "L3" (by decide) (by decide),
          hk1 "M1" (by decide) (by decide), hk1 "M2" (by decide) (by decide), hk1 "M3" (by decide) (by decide),
          hk1 "M4" (by decide) (by decide), hk1 "M5" (by decide) (by decide)]
        simp only [innerShells, List.map_cons, List.map_nil, List.sum_cons, List.sum_nil]
        ring
      · rw [if_neg hc2]
        obtain ⟨s1, s2⟩ := hset h2
        exact ⟨fun w hw _ hne => s2 w hw hne, s1⟩
    · rw [if_neg hpos]
      obtain ⟨_, ul, ue⟩ := vsetI_ok h2
      have : ∀ w ∈ quantities, w ≠ "photoelectric" → rowVal L r2 w = rowVal L r1 w := by
        intro w hw hne
        rw [ue]
        exact rowVal_set (hd _ (by decide) _ hw (Ne.symm hne))
      exact ⟨fun w hw hne _ => this w hw hne, by rw [this _ (by decide) (by decide), hk1 _ (by decide) (by decide)]⟩
  have hr3 : (∀ w ∈ quantities, w ≠ "all other" → rowVal L r3 w = rowVal L r2 w) ∧
      rowVal L r3 "all other" = max 0 (rowVal L r2 "all other") := by
    unfold clampOther at h3
    obtain ⟨o, ho, h3⟩ := Outcome.bind_eq_ok.1 h3
    have hov : o = rowVal L r2 "all other" := (rowVal_of ho).symm
    subst hov
    split_ifs at h3 with hneg
    · obtain ⟨s1, s2⟩ := hset h3
      exact ⟨s2, by rw [s1, max_eq_left hneg.le]⟩
    · have h3 : r2 = r3 := by simpa using h3
      subst h3
      exact ⟨fun _ _ _ => rfl, by rw [max_eq_right (not_lt.1 hneg)]⟩
  refine ⟨(rowVal_of hen).symm, ?_, ?_⟩
  · intro w hw n1 n2
    rw [hr3.1 w hw n2, hr2.1 w hw n1 n2, hk1 w hw n1]
  · rw [hr3.2, hr2.2]
    unfold outerShells
    simp only
    have hz : (18 : Int) < (i : Int) + 1 ↔ 17 < i := by omega
    simp only [hz]
    split_ifs
    · rfl
    · exact max_self 0
    · rfl

theorem recalcRows_ok {L : SMap Str Int} {i : Nat} : ∀ {rows : List (List K)} {t : List (K × List K)},
    recalcRows L i rows = .ok t → t.length = rows.length ∧ ∀ (j : Nat) (row : List K), rows[j]? = some row →
      ∃ a, t[j]? = some a ∧ recalcRow L i row = .ok a := by
  intro rows
  induction rows with
  | nil => intro t h; cases h; exact ⟨rfl, fun j row h => by simp at h⟩
  | cons r rest ih =>
    intro t h
    unfold recalcRows at h
    obtain ⟨a, ha, h⟩ := Outcome.bind_eq_ok.1 h
    obtain ⟨t', ht', h⟩ := Outcome.bind_eq_ok.1 h
    cases h
    obtain ⟨h1, h2⟩ := ih ht'
    refine ⟨by simp [h1], fun j row hj => ?_⟩
    cases j with
    | zero =>
      simp only [List.getElem?_cons_zero, Option.some.injEq] at hj
      subst hj
      exact ⟨a, rfl, ha⟩
    | succ j => exact h2 j row (by simpa using hj)

theorem readScans_ok (labels : List Str) (L : SMap Str Int) : ∀ (scans : List (Scan K)) (i : Nat) (values : List (List (List K)))
    (energies : List (List K)), i + scans.length ≤ values.length → i + scans.length ≤ energies.length →
    (readScans labels L scans i values energies).1 = .ok () →
    (∀ (k : Nat) (s : Scan K), scans[k]? = some s → s.labels = labels ∧ ∃ t, recalcRows L (i + k) s.rows = .ok t ∧
      (readScans labels L scans i values energies).2.1[i + k]? = some (t.map Prod.snd) ∧
      (readScans labels L scans i values energies).2.2[i + k]? = some (t.map Prod.fst)) ∧
    (readScans labels L scans i values energies).2.1.length = values.length ∧
    (readScans labels L scans i values energies).2.2.length = energies.length ∧
    (∀ k, k < i → (readScans labels L scans i values energies).2.1[k]? = values[k]? ∧
      (readScans labels L scans i values energies).2.2[k]? = energies[k]?) := by
  intro scans
  induction scans with
  | nil => intro i v e _ _ _; exact ⟨fun k s h => by simp at h, rfl, rfl, fun _ _ => ⟨rfl, rfl⟩⟩
  | cons s rest ih =>
    intro i v e hv he h
    simp only [List.length_cons] at hv he
    unfold readScans at h ⊢
    split_ifs at h ⊢ with hl
    cases hr : recalcRows L i s.rows with
    | ok t =>
      rw [hr] at h
      simp only at h ⊢
      obtain ⟨a, b, c, d⟩ := ih (i + 1) _ _ (by rw [List.length_set]; omega) (by rw [List.length_set]; omega) h
      refine ⟨?_, by rw [b, List.length_set], by rw [c, List.length_set], ?_⟩
      · intro k s' hk
        cases k with
        | zero =>
          simp only [List.getElem?_cons_zero, Option.some.injEq] at hk
          subst hk
          refine ⟨not_not.1 hl, t, hr, ?_, ?_⟩
          · show _[i]? = _
            rw [(d i (by omega)).1, List.getElem?_set_self (by omega)]
          · show _[i]? = _
            rw [(d i (by omega)).2, List.getElem?_set_self (by omega)]
        | succ k =>
          rw [show i + (k + 1) = i + 1 + k by omega]
          exact a k s' (by simpa using hk)
      · intro k hk
        rw [(d k (by omega)).1, (d k (by omega)).2, List.getElem?_set_ne (by omega), List.getElem?_set_ne (by omega)]
        exact ⟨rfl, rfl⟩
    | throw x => rw [hr] at h; cases h
    | ub x => rw [hr] at h; cases h
    | diverge => rw [hr] at h; cases h

theorem column_get : ∀ {n : Nat} {rows : List (List K)} {idx : Int} {c : List K}, column rows n idx = .ok c →
    ∀ j, j < n → ∃ r v, rows[j]? = some r ∧ vgetI r idx = .ok v ∧ c[j]? = some v := by
  intro n
  induction n with
  | zero => intro rows idx c _ j hj; omega
  | succ n ih =>
    intro rows idx c h j hj
    cases rows with
    | nil => exact absurd h (by simp [column])
    | cons r rest =>
      unfold column at h
      obtain ⟨v, hv, h⟩ := Outcome.bind_eq_ok.1 h
      obtain ⟨t, ht, h⟩ := Outcome.bind_eq_ok.1 h
      cases h
      cases j with
      | zero => exact ⟨r, v, rfl, hv, rfl⟩
      | succ j =>
        obtain ⟨r', v', a, b, d⟩ := ih ht j (by omega)
        exact ⟨r', v', by simpa using a, b, by simpa using d⟩

theorem tableLoop_find {rows : List (List K)} {n : Nat} : ∀ (labels : List (Str × Int)) (a a' : TableAcc K),
    (labels.map Prod.fst).Nodup → tableLoop rows n labels a = .ok a' →
    (∀ p ∈ labels, p.1 ≠ "total".toList → p.1 ≠ "photoelectric".toList →
      ∃ c, column rows n p.2 = .ok c ∧ a'.result.find? p.1 = some c) ∧
    ∀ k, k ∉ labels.map Prod.fst → a'.result.find? k = a.result.find? k := by
  intro labels
  induction labels with
  | nil => intro a a' _ h; cases h; exact ⟨by simp, fun _ _ => rfl⟩
  | cons p more ih =>
    intro a a' hnd h
    obtain ⟨key, idx⟩ := p
    simp only [List.map_cons, List.nodup_cons] at hnd
    unfold tableLoop at h
    by_cases hk : key = "total".toList ∨ key = "photoelectric".toList
    · rw [if_pos hk] at h
      obtain ⟨h1, h2⟩ := ih a a' hnd.2 h
      refine ⟨?_, fun k hk' => h2 k (fun hc => hk' (List.mem_cons_of_mem _ hc))⟩
      intro p hp n1 n2
      rcases List.mem_cons.1 hp with rfl | hp
      · rcases hk with hk | hk
        · exact absurd hk n1
        · exact absurd hk n2
      · exact h1 p hp n1 n2
    · rw [if_neg hk] at h
      obtain ⟨c, hc, h⟩ := Outcome.bind_eq_ok.1 h
      obtain ⟨h1, h2⟩ := ih _ a' hnd.2 h
      refine ⟨?_, ?_⟩
      · intro p hp n1 n2
        rcases List.mem_cons.1 hp with rfl | hp
        · refine ⟨c, hc, ?_⟩
          rw [h2 key hnd.1]
          simp only
          rw [SMap.find?_insert, if_pos rfl]
        · exact h1 p hp n1 n2
      · intro k hk'
        simp only [List.map_cons, List.mem_cons, not_or] at hk'
        rw [h2 k hk'.2]
        simp only
        rw [SMap.find?_insert, if_neg (fun h => hk'.1 h.symm)]

theorem interesting_eq : interestingLabels = quantities.map String.toList := rfl

/-- **C112** After the files have been loaded, the table returned for the element of number `z` has a point for each row of
scan `z`. Its energies, the coefficients of coherent and Compton scattering and those of the shells K to M5 are those of
the file, in the columns of the labels that name them; the one of the outer shells is recalculated from the total one. -/
theorem C112_table (e : EPDL97 K) (bf : Option (List (Scan K))) (scans : List (Scan K))
    (h : (setDataDirectory e bf (some scans)).1 = .ok ()) (z : Int) (scan : Scan K) (hz : 1 ≤ z)
    (hs : scans[(z - 1).toNat]? = some scan) (m : SMap Str (List K))
    (hm : getTable (setDataDirectory e bf (some scans)).2 z = .ok m) :
    ∃ idx : String → Nat, (∀ w ∈ quantities, ColumnFor scan.labels w (idx w)) ∧
      ((∀ w ∈ quantities, ∀ w' ∈ quantities, w ≠ w' → idx w ≠ idx w') →
        ∀ (j : Nat) (row : List K), scan.rows[j]? = some row →
          (∀ w ∈ "energy" :: "coherent" :: "compton" :: innerShells, ∃ c, m.find? w.toList = some c ∧
            c.length = scan.rows.length ∧ c[j]? = row[idx w]?) ∧
          ∃ c, m.find? "all other".toList = some c ∧ c.length = scan.rows.length ∧
            c[j]? = some (outerShells z (row.getD (idx "total") 0) (row.getD (idx "compton") 0) (row.getD (idx "coherent") 0)
              (row.getD (idx "all other") 0) (innerShells.map (fun w => row.getD (idx w) 0)))) := by
  obtain ⟨bs, r0, t0, scans', hbf, _, _, _, hcf, hc, hres⟩ := load_parts h
  obtain rfl : scans = scans' := by simpa using hcf
  rw [hres] at hm
  clear hres h
  set e0 : EPDL97 K := { (new : EPDL97 K) with binding := t0, initialized := true } with he0
  have hslt := (List.getElem?_eq_some_iff.1 hs).1
  unfold loadCrossSections at hc hm
  simp only at hc hm
  split_ifs at hc hm with hlen hlab
  set labels := (scans.head?.map Scan.labels).getD [] with hlabels
  have hL0 : e0.labelIndex = [] := rfl
  cases hf : (findLabels labels interestingLabels e0.labelIndex).1 with
  | throw x => rw [hf] at hc; cases hc
  | ub x => rw [hf] at hc; cases hc
  | diverge => rw [hf] at hc; cases hc
  | ok u =>
  rw [hf] at hc hm
  simp only at hc hm
  set L := (findLabels labels interestingLabels e0.labelIndex).2 with hL
  have hv0 : e0.values = [] := rfl
  have hm0 : e0.muEnergy = [] := rfl
  rw [hv0, hm0, resize_empty, resize_empty] at hc hm
  obtain ⟨q1, q2, q3, _⟩ := readScans_ok labels L scans 0 _ _ (by simp) (by simp) hc
  set R := readScans labels L scans 0 (List.replicate scans.length []) (List.replicate scans.length []) with hR
  obtain ⟨hsl, t, ht, hval, hen⟩ := q1 _ _ hs
  rw [Nat.zero_add] at ht hval hen
  rw [List.length_replicate] at q2 q3
  have hidx : ∀ w ∈ quantities, ∃ i : Nat, L.find? w.toList = some (i : Int) ∧ ColumnFor scan.labels w i := by
    intro w hw
    obtain ⟨a, b⟩ := findLabels_ok labels interestingLabels e0.labelIndex (by decide +kernel) hf w.toList
      (by rw [interesting_eq]; exact List.mem_map_of_mem hw)
    obtain ⟨i, hi, hcol⟩ := labelIndexOf_column hw b
    exact ⟨i, by rw [hL, a, hi], by rw [hsl]; exact hcol⟩
  have hidx' : ∀ w ∈ quantities, idxOf L w = ((idxOf L w).toNat : Int) ∧ ColumnFor scan.labels w (idxOf L w).toNat ∧
      (w.toList, idxOf L w) ∈ (L : List (Str × Int)) := by
    intro w hw
    obtain ⟨i, hi, hcol⟩ := hidx w hw
    have : idxOf L w = i := by unfold idxOf; rw [hi]; rfl
    rw [this]
    exact ⟨by simp, by simpa using hcol, SMap.mem_of_find? hi⟩
  refine ⟨fun w => (idxOf L w).toNat, fun w hw => (hidx' w hw).2.1, ?_⟩
  intro hd j row hrow
  obtain ⟨htl, hta⟩ := recalcRows_ok ht
  obtain ⟨a, haj, har⟩ := hta j row hrow
  obtain ⟨_, f2, f3⟩ := recalcRow_ok har hd
  have hjlt := (List.getElem?_eq_some_iff.1 hrow).1
  -- the table
  have hsorted : L.Sorted := findLabels_sorted labels interestingLabels _ (by rw [hL0]; exact SMap.sorted_nil)
  unfold getTable at hm
  rw [if_neg (by simp), if_neg (by omega)] at hm
  have hel : ∀ x : EPDL97 K, x.muEnergy = R.2.2 → elementIndex x z = (((z - 1).toNat : Nat) : Int) := by
    intro x hx
    unfold elementIndex
    rw [hx, q3, if_neg (by omega)]
    omega
  rw [hel _ rfl] at hm
  simp only at hm
  have hvl : (z - 1).toNat < R.2.1.length := by rw [q2]; exact hslt
  have hel' : (z - 1).toNat < R.2.2.length := by rw [q3]; exact hslt
  rw [Element.vgetI_nat _ _ hvl, Element.vgetI_nat _ _ hel'] at hm
  simp only [Outcome.ok_bind] at hm
  have e1 : R.2.1[(z - 1).toNat] = t.map Prod.snd := (List.getElem?_eq_some_iff.1 hval).2
  have e2 : R.2.2[(z - 1).toNat] = t.map Prod.fst := (List.getElem?_eq_some_iff.1 hen).2
  rw [e1, e2] at hm
  obtain ⟨acc, hacc, hm⟩ := Outcome.bind_eq_ok.1 hm
  rw [List.length_map, htl] at hacc hm
  obtain ⟨g1, _⟩ := tableLoop_find _ _ _ (SMap.keys_nodup hsorted) hacc
  have hfin : ∀ w ∈ quantities, w ≠ "total" → w ≠ "photoelectric" → ∃ c, m.find? w.toList = some c ∧
      c.length = scan.rows.length ∧ ∃ v, vgetI a.2 (idxOf L w) = .ok v ∧ c[j]? = some v := by
    intro w hw n1 n2
    have t1 : w.toList ≠ "total".toList := fun h => n1 (String.toList_inj.1 h)
    have t2 : w.toList ≠ "photoelectric".toList := fun h => n2 (String.toList_inj.1 h)
    obtain ⟨c, hcol, hfind⟩ := g1 _ (hidx' w hw).2.2 t1 t2
    refine ⟨c, ?_, column_length hcol, ?_⟩
    · have hm : ((if L.mem "pair".toList then acc.result else acc.result.insert "pair".toList
          (List.replicate scan.rows.length 0)).insert "photoelectric".toList acc.photo).insert "total".toList
          (List.zipWith (· + ·) acc.rest acc.photo) = m := by simpa using hm
      rw [← hm, SMap.find?_insert, if_neg (Ne.symm t1), SMap.find?_insert, if_neg (Ne.symm t2)]
      split_ifs with hp
      · exact hfind
      · rw [SMap.find?_insert, if_neg]
        · exact hfind
        · intro hpw
          have hnp : ∀ w ∈ quantities, w.toList ≠ "pair".toList := by decide +kernel
          exact hnp w hw hpw.symm
    · obtain ⟨r, v, b1, b2, b3⟩ := column_get hcol j hjlt
      rw [List.getElem?_map, haj] at b1
      have b1 : a.2 = r := by simpa using b1
      subst b1
      exact ⟨v, b2, b3⟩
  constructor
  · intro w hw
    have hq : ∀ w ∈ "energy" :: "coherent" :: "compton" :: innerShells, w ∈ quantities ∧ w ≠ "total" ∧ w ≠ "photoelectric" ∧
        w ≠ "all other" := by decide +kernel
    obtain ⟨w1, w2, w3, w4⟩ := hq w hw
    obtain ⟨c, c1, c2, v, c3, c4⟩ := hfin w w1 w2 w3
    refine ⟨c, c1, c2, ?_⟩
    rw [c4]
    have hv := f2 w w1 w3 w4
    rw [rowVal_of c3] at hv
    have hlt : (idxOf L w).toNat < row.length := by
      rw [← recalcRow_length har]
      exact (List.getElem?_eq_some_iff.1 (vgetI_ok c3).2).1
    rw [hv]
    unfold rowVal
    rw [List.getD_eq_getElem?_getD, List.getElem?_eq_getElem hlt]
    rfl
  · obtain ⟨c, c1, c2, v, c3, c4⟩ := hfin "all other" (by decide) (by decide) (by decide)
    refine ⟨c, c1, c2, ?_⟩
    rw [c4, ← rowVal_of c3, f3]
    congr 2
    omega

/-! ## C113: the totals -/

theorem load_indep (e : EPDL97 K) (bf cf : Option (List (Scan K))) :
    setDataDirectory e bf cf = setDataDirectory new bf cf := rfl

/-- Value of column `w` at row `j`. -/
theorem colAt_of {m : SMap Str (List K)} {k : Str} {c : List K} (h : m.find? k = some c) (j : Nat) :
    colAt m k j = c.getD j 0 := by
  unfold colAt; rw [h]; rfl

theorem findLabels_mem (labels : List Str) : ∀ (ws : List Str) (acc : SMap Str Int) (k : Str),
    k ∉ ws → acc.mem k = false → (findLabels labels ws acc).2.mem k = false := by
  intro ws acc k hk ha
  unfold SMap.mem at ha ⊢
  rw [findLabels_keys labels ws acc k hk]
  exact ha

/-- No table has coefficients of pair production. -/
theorem table_pair (e : EPDL97 K) (bf : Option (List (Scan K))) (scans : List (Scan K))
    (h : (setDataDirectory e bf (some scans)).1 = .ok ()) (z : Int) (m : SMap Str (List K))
    (hm : getTable (setDataDirectory e bf (some scans)).2 z = .ok m) (j : Nat) : colAt m "pair".toList j = 0 := by
  obtain ⟨bs, r0, t0, scans', hbf, _, _, _, hcf, hc, hres⟩ := load_parts h
  obtain rfl : scans = scans' := by simpa using hcf
  have hL : (setDataDirectory e bf (some scans)).2.labelIndex.mem "pair".toList = false := by
    rw [hres]
    simp only
    unfold loadCrossSections at hc ⊢
    simp only at hc ⊢
    split_ifs at hc ⊢ with h1 h2
    cases hf : (findLabels ((scans.head?.map Scan.labels).getD []) interestingLabels
      ({ (new : EPDL97 K) with binding := t0, initialized := true } : EPDL97 K).labelIndex).1 with
    | ok u => exact findLabels_mem _ _ _ _ (by decide +kernel) (by rfl)
    | throw x => rw [hf] at hc; cases hc
    | ub x => rw [hf] at hc; cases hc
    | diverge => rw [hf] at hc; cases hc
  unfold getTable at hm
  split at hm
  · exact absurd hm (by simp)
  split at hm
  · exact absurd hm (by simp)
  obtain ⟨rows, _, hm⟩ := Outcome.bind_eq_ok.1 hm
  obtain ⟨E, _, hm⟩ := Outcome.bind_eq_ok.1 hm
  obtain ⟨a, ha, hm⟩ := Outcome.bind_eq_ok.1 hm
  rw [hL] at hm
  injection hm with hm
  rw [← hm, colAt_insert, if_neg (by decide +kernel), colAt_insert, if_neg (by decide +kernel), if_neg (by simp), colAt_insert, if_pos rfl,
    List.getD_eq_getElem?_getD, List.getElem?_replicate]
  split <;> rfl

/-- **C113** (what is returned) In the table returned for an element, at each point of the file, the photoelectric
coefficient is the sum of those of the shells K to M5 in the file and of the recalculated one of the outer shells; the total
one is that sum plus the coherent and Compton ones of the file. The photoelectric and total coefficients of the file
are not returned. -/
theorem C113_sums (e : EPDL97 K) (bf : Option (List (Scan K))) (scans : List (Scan K))
    (h : (setDataDirectory e bf (some scans)).1 = .ok ()) (z : Int) (scan : Scan K) (hz : 1 ≤ z)
    (hs : scans[(z - 1).toNat]? = some scan) (m : SMap Str (List K))
    (hm : getTable (setDataDirectory e bf (some scans)).2 z = .ok m) :
    ∃ idx : String → Nat, (∀ w ∈ quantities, ColumnFor scan.labels w (idx w)) ∧
      ((∀ w ∈ quantities, ∀ w' ∈ quantities, w ≠ w' → idx w ≠ idx w') →
        ∀ (j : Nat) (row : List K), scan.rows[j]? = some row →
          let inner := innerShells.map (fun w => row.getD (idx w) 0)
          let outer := outerShells z (row.getD (idx "total") 0) (row.getD (idx "compton") 0) (row.getD (idx "coherent") 0)
              (row.getD (idx "all other") 0) inner
          colAt m "photoelectric".toList j = inner.sum + outer ∧
          colAt m "total".toList j = inner.sum + outer + row.getD (idx "coherent") 0 + row.getD (idx "compton") 0) := by
  obtain ⟨idx, h1, h2⟩ := C112_table e bf scans h z scan hz hs m hm
  refine ⟨idx, h1, fun hd j row hrow => ?_⟩
  obtain ⟨g1, c, g2, _, g3⟩ := h2 hd j row hrow
  have hrun : getTable (run [.setDataDirectory bf (some scans)]) z = .ok m := hm
  obtain ⟨s1, s2⟩ := C62_table_sums _ z m hrun j
  have hcol : ∀ w ∈ "energy" :: "coherent" :: "compton" :: innerShells, colAt m w.toList j = row.getD (idx w) 0 := by
    intro w hw
    obtain ⟨c, c1, _, c3⟩ := g1 w hw
    rw [colAt_of c1, List.getD_eq_getElem?_getD, c3, List.getD_eq_getElem?_getD]
  have hout := colAt_of g2 j
  rw [List.getD_eq_getElem?_getD, g3] at hout
  simp only [Option.getD_some] at hout
  have hsum : (Element.photoShells.map (fun s => colAt m s j)).sum =
      (innerShells.map (fun w => row.getD (idx w) 0)).sum + colAt m "all other".toList j := by
    have hin : innerShells.map (fun w => row.getD (idx w) 0) = innerShells.map (fun w => colAt m w.toList j) :=
      List.map_congr_left (fun w hw => (hcol w (by simp [hw])).symm)
    rw [hin, show Element.photoShells = innerShells.map String.toList ++ ["all other".toList] from rfl]
    rw [List.map_append, List.sum_append, List.map_map]
    simp [Function.comp_def]
  simp only
  rw [← hout, s2, s1, hsum, hcol "coherent" (by simp), hcol "compton" (by simp), table_pair e bf scans h z m hm j]
  exact ⟨rfl, by ring⟩

/-- **C113** (partial) The total and photoelectric coefficients returned for an element are those of the file (the second as
the difference of the total and the scattering ones) if its number is above 18, the file has a positive coefficient for
the outer shells and the inner shells do not exceed the photoelectric one. Missing: the other elements, for which this
is violated (`C113_light_violated`, `C113_no_outer_violated`). -/
theorem C113_total_partial (e : EPDL97 K) (bf : Option (List (Scan K))) (scans : List (Scan K))
    (h : (setDataDirectory e bf (some scans)).1 = .ok ()) (z : Int) (scan : Scan K) (hz : 18 < z)
    (hs : scans[(z - 1).toNat]? = some scan) (m : SMap Str (List K))
    (hm : getTable (setDataDirectory e bf (some scans)).2 z = .ok m) :
    ∃ idx : String → Nat, (∀ w ∈ quantities, ColumnFor scan.labels w (idx w)) ∧
      ((∀ w ∈ quantities, ∀ w' ∈ quantities, w ≠ w' → idx w ≠ idx w') →
        ∀ (j : Nat) (row : List K), scan.rows[j]? = some row →
          0 < row.getD (idx "all other") 0 →
          0 < row.getD (idx "total") 0 - row.getD (idx "compton") 0 - row.getD (idx "coherent") 0 →
          (innerShells.map (fun w => row.getD (idx w) 0)).sum ≤
            row.getD (idx "total") 0 - row.getD (idx "compton") 0 - row.getD (idx "coherent") 0 →
          colAt m "total".toList j = row.getD (idx "total") 0 ∧
          colAt m "photoelectric".toList j =
            row.getD (idx "total") 0 - row.getD (idx "compton") 0 - row.getD (idx "coherent") 0) := by
  obtain ⟨idx, h1, h2⟩ := C113_sums e bf scans h z scan (by omega) hs m hm
  refine ⟨idx, h1, fun hd j row hrow ho hp hi => ?_⟩
  obtain ⟨g1, g2⟩ := h2 hd j row hrow
  have hou : outerShells z (row.getD (idx "total") 0) (row.getD (idx "compton") 0) (row.getD (idx "coherent") 0)
      (row.getD (idx "all other") 0) (innerShells.map (fun w => row.getD (idx w) 0)) =
      row.getD (idx "total") 0 - row.getD (idx "compton") 0 - row.getD (idx "coherent") 0 -
        (innerShells.map (fun w => row.getD (idx w) 0)).sum := by
    unfold outerShells
    simp only
    rw [if_pos hp, if_pos ⟨ho, hz⟩, max_eq_right (by linarith)]
  rw [hou] at g1 g2
  exact ⟨by rw [g2]; ring, by rw [g1]; ring⟩

section example113

attribute [local instance] Element.exampleTrans

/-- Files meeting the hypotheses of `C111_binding_energies`, `C112_table`, `C113_sums` and `C113_total_partial`: they load, the
columns of the fifteen quantities are distinct, and the total coefficients returned for potassium are those of the file. -/
example : (setDataDirectory (new : EPDL97 ℚ) (some [exampleBinding]) (some (List.replicate 99 exampleScan))).1 = .ok () ∧
    (getTable (setDataDirectory (new : EPDL97 ℚ) (some [exampleBinding]) (some (List.replicate 99 exampleScan))).2 19).bind
      (fun m => .ok (colAt m "total".toList 0, colAt m "total".toList 1, colAt m "all other".toList 0)) = .ok (10, 8, 2) ∧
    (getBindingEnergies (setDataDirectory (new : EPDL97 ℚ) (some [exampleBinding]) (some (List.replicate 99 exampleScan))).2
      19).bind (fun b => .ok (b.find? "K".toList, b.find? "L1".toList)) = .ok (some (1/2), some (1/4)) := by decide +kernel

example : (quantities.map (fun w => labelIndexOf exampleScan.labels w.toList)).Nodup ∧
    ∀ w ∈ quantities, labelIndexOf exampleScan.labels w.toList ≠ -1 := by decide +kernel

/-- **C113 is violated** for an element of number up to 18: the total coefficient returned (8) is not the one of the file (10),
because the coefficient of the outer shells in the file is dropped. -/
theorem C113_light_violated :
    (setDataDirectory (new : EPDL97 ℚ) (some [exampleBinding]) (some (List.replicate 99 exampleScan))).1 = .ok () ∧
    (getTable (setDataDirectory (new : EPDL97 ℚ) (some [exampleBinding]) (some (List.replicate 99 exampleScan))).2 18).bind
      (fun m => .ok (colAt m "total".toList 0)) = .ok 8 ∧
    exampleScan.rows[0]?.bind (·[14]?) = some 10 := by decide +kernel

/-- The same file with no coefficient for the outer shells. -/
def noOuterScan : Scan ℚ := { exampleScan with rows := exampleScan.rows.map (·.set 12 0) }

/-- **C113 is violated** for any element whose file has no coefficient of outer shells. -/
theorem C113_no_outer_violated :
    (setDataDirectory (new : EPDL97 ℚ) (some [exampleBinding]) (some (List.replicate 99 noOuterScan))).1 = .ok () ∧
    (getTable (setDataDirectory (new : EPDL97 ℚ) (some [exampleBinding]) (some (List.replicate 99 noOuterScan))).2 50).bind
      (fun m => .ok (colAt m "total".toList 0)) = .ok 8 ∧
    noOuterScan.rows[0]?.bind (·[14]?) = some 10 := by decide +kernel

end example113

end EPDL97
end Fisx
