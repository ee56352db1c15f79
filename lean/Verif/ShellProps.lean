import Verif.ShellLemmas

/-!
# Properties of `fisx::Shell`: C12, C14, C56, C57
-/

set_option linter.unusedSectionVars false

namespace Fisx.Shell

variable {K : Type} [Field K] [LinearOrder K] [IsStrictOrderedRing K]

/-! ## C57: the shells that can be created -/

/-- The shell names of the documentation. -/
def validNames : List Str :=
  ["K".toList, "L1".toList, "L2".toList, "L3".toList,
   "M1".toList, "M2".toList, "M3".toList, "M4".toList, "M5".toList]

theorem digitVal_some {c : Char} {n : Nat} (h : digitVal c = some n) :
    c = Char.ofNat (48 + n) ∧ n ≤ 9 := by
  unfold digitVal at h
  split at h
  · rename_i hd
    simp only [Option.some.injEq] at h
    simp only [Char.isDigit, Bool.and_eq_true, decide_eq_true_eq] at hd
    obtain ⟨h1, h2⟩ := hd
    have h1' : 48 ≤ c.toNat := h1
    have h2' : c.toNat ≤ 57 := h2
    refine ⟨?_, by omega⟩
    subst h
    rw [Nat.add_sub_cancel' h1']
    exact (Char.ofNat_toNat c).symm
  · simp at h

/-- **C57** The constructor accepts exactly the names K, L1-L3 and M1-M5 and rejects every other string with
`invalid_argument`. -/
theorem C57_constructor (name : Str) :
    (name ∈ validNames → ∃ s : Shell K, mk? name = .ok s ∧ s.name = name) ∧
    (name ∉ validNames → (mk? name : Outcome (Shell K)) = .throw .invalidArgument) := by
  constructor
  · intro h
    simp only [validNames, List.mem_cons, List.not_mem_nil, or_false] at h
    rcases h with rfl | rfl | rfl | rfl | rfl | rfl | rfl | rfl | rfl <;> exact ⟨_, rfl, rfl⟩
  · intro h
    unfold mk?
    split
    · rfl
    · rename_i hlen
      split
      · rfl
      · rename_i hmain
        match name, hlen, hmain, h with
        | [], _, hmain, _ => exact absurd (by decide) hmain
        | [a], _, hmain, h =>
          exfalso
          by_cases ha : a = 'K'
          · subst ha; exact h (by decide)
          · apply hmain
            unfold mainIndexOf
            simp [ha]
        | [a, c], _, hmain, h =>
          simp only
          cases hc : digitVal c with
          | none => rfl
          | some n =>
            obtain ⟨rfl, hn⟩ := digitVal_some hc
            have ha : a = 'M' ∨ a = 'L' := by
              by_contra hcon
              rw [not_or] at hcon
              apply hmain
              unfold mainIndexOf
              simp [hcon.1, hcon.2]
            have hn' : n = 0 ∨ n = 1 ∨ n = 2 ∨ n = 3 ∨ n = 4 ∨ n = 5 ∨ n = 6 ∨ n = 7 ∨ n = 8 ∨ n = 9 := by
              omega
            rcases ha with rfl | rfl <;>
              rcases hn' with rfl | rfl | rfl | rfl | rfl | rfl | rfl | rfl | rfl | rfl <;>
              first
              | rfl
              | exact absurd (by decide) h
        | _ :: _ :: _ :: _, hlen, _, _ => exact absurd (by simp) hlen

example : (mk? "L2".toList : Outcome (Shell ℚ)).isOk = true ∧
    (mk? "L4".toList : Outcome (Shell ℚ)) = .throw .invalidArgument ∧
    (mk? "N1".toList : Outcome (Shell ℚ)) = .throw .invalidArgument ∧
    (mk? "".toList : Outcome (Shell ℚ)) = .throw .invalidArgument := by decide +kernel

/-! ## C12: fluorescence ratios -/

/-- The sum of all the rates of a map except the one labelled TOTAL. -/
def rateSum (m : SMap Str K) : K := ((m.filter (fun e => e.1 ≠ total)).map Prod.snd).sum

theorem setRadiative_ok {s s' : Shell K} {labels : List Str} {values : List K}
    (h : s.setRadiative labels values = (.ok (), s')) :
    (radiativeLoop s.name labels values 0 []).1 = .ok () ∧
    s' = { s with radiative := (radiativeLoop s.name labels values 0 []).2,
                  fluorescence := fluorescenceRatios (radiativeLoop s.name labels values 0 []).2 } := by
  unfold setRadiative at h
  split at h
  · rename_i m hm
    simp only [Prod.mk.injEq, true_and] at h
    rw [hm]
    exact ⟨rfl, h.symm⟩
  · rename_i o m hne hm
    simp only [Prod.mk.injEq] at h
    exact absurd h.1 (fun h' => hne (h' ▸ rfl))

/-- **C12** After a successful `setRadiativeTransitions` the fluorescence ratios are exactly the positive
rates other than TOTAL, divided by the sum of the rates other than TOTAL; for non-negative rates the ratios
are positive and sum to one as soon as one rate is positive. -/
theorem C12_fluorescence_ratios {s s' : Shell K} {labels : List Str} {values : List K}
    (h : s.setRadiative labels values = (.ok (), s')) :
    (∀ k r, s'.fluorescence.find? k = some r ↔
      ∃ v, s'.radiative.find? k = some v ∧ 0 < v ∧ k ≠ total ∧ r = v / rateSum s'.radiative) ∧
    ((∀ v ∈ values, 0 ≤ v) →
      (∀ e ∈ s'.fluorescence, 0 < e.2) ∧
      ((∃ k v, s'.radiative.find? k = some v ∧ k ≠ total ∧ 0 < v) →
        (s'.fluorescence.map Prod.snd).sum = 1)) := by
  obtain ⟨_, hs'⟩ := setRadiative_ok h
  have hsort := radiativeLoop_sorted s.name labels values 0 ([] : SMap Str K) SMap.sorted_nil
  have hfl : s'.fluorescence = fluorescenceRatios s'.radiative := by rw [hs']
  have hrs : SMap.Sorted s'.radiative := by rw [hs']; exact hsort
  have heq := fluorescenceRatios_eq s'.radiative hrs
  rw [← hfl] at heq
  refine ⟨?_, ?_⟩
  · intro k r
    rw [heq, SMap.find?_mapVal (m := s'.radiative.filter _)
      (g := fun e => e.2 / ((s'.radiative.filter (fun e => e.1 ≠ total)).map Prod.snd).sum),
      SMap.find?_filter hrs]
    cases hf : SMap.find? s'.radiative k with
    | none => simp
    | some w =>
      by_cases hc : w > 0 ∧ k ≠ total
      · simp [Option.filter_some, hc, rateSum, eq_comm]
      · simp only [Option.filter_some, decide_eq_true_eq, hc, if_false, Option.map_none,
          false_iff, reduceCtorEq]
        rintro ⟨v, hv, h1, h2, _⟩
        simp only [Option.some.injEq] at hv
        subst hv
        exact hc ⟨h1, h2⟩
  · intro hv
    have hnn : ∀ e ∈ s'.radiative, 0 ≤ e.2 := by
      rw [hs']
      exact radiativeLoop_nonneg s.name labels values 0 [] (by simp) hv
    have hT : ((s'.radiative.filter (fun e => decide (e.2 > 0 ∧ e.1 ≠ total))).map Prod.snd).sum
        = rateSum s'.radiative := by
      have := sum_filter_pos s'.radiative (fun e => decide (e.1 ≠ total)) hnn
      unfold rateSum
      rw [← this]
      congr 3
      funext e
      rw [Bool.decide_and]
    have hpos : ∀ k v, SMap.find? s'.radiative k = some v → k ≠ total → 0 < v →
        0 < rateSum s'.radiative := by
      intro k v hf hk hv
      rw [← hT]
      refine lt_of_lt_of_le hv (List.single_le_sum ?_ _ ?_)
      · intro x hx
        obtain ⟨e, he, rfl⟩ := List.mem_map.1 hx
        exact hnn e (List.mem_of_mem_filter he)
      · exact List.mem_map.2 ⟨(k, v), List.mem_filter.2 ⟨SMap.mem_of_find? hf, by simp [hv, hk]⟩, rfl⟩
    constructor
    · intro e he
      rw [heq] at he
      obtain ⟨f, hf, rfl⟩ := List.mem_map.1 he
      obtain ⟨hf1, hf2⟩ := List.mem_filter.1 hf
      simp only [decide_eq_true_eq] at hf2
      exact div_pos hf2.1 (hpos f.1 f.2 (SMap.find?_of_mem hrs hf1) hf2.2 hf2.1)
    · rintro ⟨k, v, hf, hk, hv⟩
      rw [heq, sum_ratio, hT]
      exact div_self (ne_of_gt (hpos k v hf hk hv))

/-- A plain transition label of a shell: upper case, three or four characters, starting with the shell name
(KL3, L3M5, ...). -/
def PlainLabel (name l : Str) : Prop :=
  l.upper = l ∧ (l.length = 3 ∨ l.length = 4) ∧ l.take name.length = name

theorem radiativeKey_plain {name l : Str} (h : PlainLabel name l) : radiativeKey name l = some l := by
  obtain ⟨h1, h2, h3⟩ := h
  unfold radiativeKey
  rw [h1]
  have a : l.length ≠ 2 := by omega
  have b : l.length ≠ 5 := by omega
  simp [a, b, h3]

theorem radiativeLoop_plain (name : Str) (labels : List Str) (values : List K) (i : Nat) (m : SMap Str K)
    (hl : ∀ l ∈ labels, PlainLabel name l) (hlen : i + labels.length ≤ values.length) :
    radiativeLoop name labels values i m
      = (.ok (), (labels.zip (values.drop i)).foldl (fun m e => SMap.insert m e.1 e.2) m) := by
  induction labels generalizing i m with
  | nil => simp [radiativeLoop]
  | cons l r ih =>
    simp only [List.length_cons] at hlen
    unfold radiativeLoop
    have hi : i < values.length := by omega
    rw [radiativeKey_plain (hl l (by simp))]
    simp only [vget_lt values i hi]
    rw [ih (i + 1) _ (fun x hx => hl x (List.mem_cons_of_mem _ hx)) (by omega)]
    rw [List.drop_eq_getElem_cons hi, List.zip_cons_cons, List.foldl_cons]

/-- **C12** For distinct plain labels the call succeeds and stores each value under its label, so the ratios of
`C12_fluorescence_ratios` are proportional to what the caller supplied. -/
theorem C12_stored_rates (s : Shell K) (labels : List Str) (values : List K)
    (hl : ∀ l ∈ labels, PlainLabel s.name l) (hnd : labels.Nodup) (hlen : labels.length = values.length) :
    ∃ s', s.setRadiative labels values = (.ok (), s') ∧
      (∀ k v, s'.radiative.find? k = some v ↔ (k, v) ∈ labels.zip values) := by
  have hloop := radiativeLoop_plain s.name labels values 0 [] hl (by omega)
  unfold setRadiative
  rw [hloop]
  refine ⟨_, rfl, ?_⟩
  have hkeys : (labels.zip values).map Prod.fst = labels := by
    rw [List.map_fst_zip (by omega)]
  intro k v
  simp only [List.drop_zero]
  rw [SMap.foldl_insert_find? _ _ _ (by rw [hkeys]; exact hnd)]
  constructor
  · intro h
    cases hf : SMap.find? (labels.zip values) k with
    | none => simp [hf] at h
    | some w =>
      simp only [hf, Option.some.injEq] at h
      subst h
      exact SMap.mem_of_find? hf
  · intro h
    rw [SMap.find?_of_mem_nodup (by rw [hkeys]; exact hnd) h]

/-- The hypotheses of the C12 theorems are met by three plain labels of a K shell; the ratios are 4/7, 2/7 and
1/7. -/
example : ∃ s s' : Shell ℚ, mk? "K".toList = .ok s ∧
    s.setRadiative ["KL3".toList, "KL2".toList, "KM3".toList] [4, 2, 1] = (.ok (), s') ∧
    (∀ l ∈ ["KL3".toList, "KL2".toList, "KM3".toList], PlainLabel s.name l) ∧
    s'.fluorescence = [("KL2".toList, 2/7), ("KL3".toList, 4/7), ("KM3".toList, 1/7)] := by
  refine ⟨_, _, rfl, rfl, ?_, by decide +kernel⟩
  intro l hl
  simp only [List.mem_cons, List.not_mem_nil, or_false] at hl
  rcases hl with rfl | rfl | rfl <;> exact ⟨by decide, by decide, by decide⟩

/-! ## C56: labels of other shells -/

/-- **C56** is false of the code: a K shell accepts the label "XYZ12" (stored as XYZ1), because labels of five
characters ending in two digits are not compared with the shell name. -/
theorem C56_violated : ∃ s s' : Shell ℚ, mk? "K".toList = .ok s ∧
    s.setRadiative ["XYZ12".toList] [1] = (.ok (), s') ∧
    s'.radiative.find? "XYZ1".toList = some 1 ∧ s'.fluorescence.find? "XYZ1".toList = some 1 := by
  refine ⟨_, _, rfl, rfl, ?_, ?_⟩ <;> decide +kernel

theorem radiativeKey_prefix {name l k : Str} (h5 : l.length ≠ 5)
    (h : radiativeKey name l = some k) : k = total ∨ k.take name.length = name := by
  unfold radiativeKey at h
  have hup : l.upper.length = l.length := by simp [Str.upper]
  have hne : ¬ ((if l.upper.length = 2 then l.upper ++ ['2'] else l.upper).length = 5) := by
    split
    · simp only [List.length_append, List.length_cons, List.length_nil]; omega
    · omega
  extract_lets t1 t2 at h
  have hne' : ¬ (t2.length = 5) := hne
  rw [if_neg (fun hh => hne' hh.1)] at h
  split at h
  · rename_i h1
    simp only [Option.some.injEq] at h
    subst h
    exact Or.inr h1
  · split at h
    · rename_i h1
      simp only [Option.some.injEq] at h
      subst h
      exact Or.inl h1
    · simp at h

theorem radiativeLoop_prefix (name : Str) (labels : List Str) (values : List K) (i : Nat)
    (m : SMap Str K) (h5 : ∀ l ∈ labels, l.length ≠ 5)
    (hm : ∀ e ∈ m, e.1 = total ∨ e.1.take name.length = name) :
    ∀ e ∈ (radiativeLoop name labels values i m).2, e.1 = total ∨ e.1.take name.length = name := by
  induction labels generalizing i m with
  | nil => exact hm
  | cons l r ih =>
    unfold radiativeLoop
    split
    · exact hm
    · rename_i k hk
      split
      · rename_i v hget
        apply ih _ _ (fun x hx => h5 x (List.mem_cons_of_mem _ hx))
        intro e he
        rcases SMap.mem_insert he with rfl | he
        · exact radiativeKey_prefix (h5 l (by simp)) hk
        · exact hm e he
      · exact hm

/-- **C56** (missing: labels of five characters, see `C56_violated`) every transition stored by
`setRadiativeTransitions` starts with the name of the shell or is TOTAL. -/
theorem C56_labels_partial (s : Shell K) (labels : List Str) (values : List K)
    (h5 : ∀ l ∈ labels, l.length ≠ 5) :
    ∀ k v, (s.setRadiative labels values).2.radiative.find? k = some v →
      k = total ∨ k.take s.name.length = s.name := by
  intro k v hf
  have key := radiativeLoop_prefix s.name labels values 0 ([] : SMap Str K) h5 (by simp)
  apply key (k, v)
  apply SMap.mem_of_find?
  rw [← hf]
  unfold setRadiative
  split <;> rename_i hm <;> rw [hm]

example : ∀ l ∈ ["KL3".toList, "KO".toList], l.length ≠ 5 := by decide

/-! ## C14: all-or-nothing setters -/

/-- **C14** is false of the code: a rejected list of radiative transitions destroys the stored ones (and the
fluorescence ratios still describe the previous ones). -/
theorem C14_radiative_violated : ∃ s0 s1 s2 : Shell ℚ, mk? "K".toList = .ok s0 ∧
    s0.setRadiative ["KL3".toList, "KL2".toList] [2, 1] = (.ok (), s1) ∧
    s1.setRadiative ["KM3".toList, "L3M5".toList] [1, 1] = (.throw .invalidArgument, s2) ∧
    s2.radiative = [("KM3".toList, 1)] ∧ s2.radiative ≠ s1.radiative ∧
    s2.fluorescence = s1.fluorescence ∧ s2.fluorescence ≠ fluorescenceRatios s2.radiative := by
  refine ⟨_, _, _, rfl, rfl, rfl, ?_⟩
  decide +kernel

/-- **C14** is false of the code: a rejected `setShellConstants` keeps the constants read before the invalid
one. -/
theorem C14_constants_violated : ∃ s0 s1 : Shell ℚ, mk? "L1".toList = .ok s0 ∧
    s0.setShellConstants [("f12".toList, 1/5), ("f99".toList, 1), ("omega".toList, 1/2)]
      = (.throw .invalidArgument, s1) ∧
    s0.constants.find? "f12".toList = some 0 ∧ s1.constants.find? "f12".toList = some (1/5) ∧
    s1.constants.find? "omega".toList = some 0 := by
  refine ⟨_, _, rfl, rfl, ?_⟩
  decide +kernel

/-- **C14** (missing: the data being set themselves, see the `_violated` theorems) a setter that throws leaves
everything else unchanged: a rejected list of radiative transitions leaves the non-radiative data, the
constants and even the fluorescence ratios; rejected constants leave all the transitions and ratios; and
`setNonradiativeTransitions` never throws. -/
theorem C14_partial (s : Shell K) :
    (∀ labels values e, (s.setRadiative labels values).1 = .throw e →
      (s.setRadiative labels values).2
        = { s with radiative := (s.setRadiative labels values).2.radiative }) ∧
    (∀ input e, (s.setShellConstants input).1 = .throw e →
      (s.setShellConstants input).2
        = { s with constants := (s.setShellConstants input).2.constants }) ∧
    (∀ labels values e, (s.setNonradiative labels values).1 ≠ .throw e) := by
  refine ⟨?_, ?_, ?_⟩
  · intro labels values e h
    unfold setRadiative at h ⊢
    split
    · rename_i hm
      rw [hm] at h
      simp at h
    · rfl
  · intro input e _
    rfl
  · intro labels values e h
    have key : ∀ (labels : List Str) (i : Nat) (m : SMap Str K),
        (nonradiativeLoop labels values i m).1 ≠ .throw e := by
      intro labels
      induction labels with
      | nil => intro i m; simp [nonradiativeLoop]
      | cons l r ih =>
        intro i m
        unfold nonradiativeLoop
        split
        · exact ih _ _
        · simp
    unfold setNonradiative at h
    split at h
    · simp at h
    · rename_i o m hne hm
      have := key labels 0 []
      rw [hm] at this
      exact this h

/-- Constants are never lost nor invented: after any call of `setShellConstants` the same constants are
defined, and each one holds the old value or the supplied one. -/
theorem C14_constants_defined (s : Shell K) (input : SMap Str K) (k : Str) :
    ((s.setShellConstants input).2.constants.mem k = s.constants.mem k) ∧
    ((s.setShellConstants input).2.constants.find? k = s.constants.find? k ∨
     ∃ v, (k, v) ∈ input ∧ (s.setShellConstants input).2.constants.find? k = some v) := by
  have key : ∀ (input : List (Str × K)) (c : SMap Str K),
      ((constantsLoop input c).2.mem k = c.mem k) ∧
      (SMap.find? (constantsLoop input c).2 k = SMap.find? c k ∨
        ∃ v, (k, v) ∈ input ∧ SMap.find? (constantsLoop input c).2 k = some v) := by
    intro input
    induction input with
    | nil => intro c; simp [constantsLoop]
    | cons e r ih =>
      intro c
      obtain ⟨k', v'⟩ := e
      unfold constantsLoop
      split
      · rename_i hmem
        obtain ⟨h1, h2⟩ := ih (c.insert k' v')
        refine ⟨?_, ?_⟩
        · rw [h1]
          unfold SMap.mem at hmem ⊢
          rw [SMap.find?_insert]
          split
          · rename_i hk
            subst hk
            rw [hmem]; rfl
          · rfl
        · rcases h2 with h2 | ⟨v, hv, h2⟩
          · rw [SMap.find?_insert] at h2
            split at h2
            · rename_i hk
              subst hk
              exact Or.inr ⟨v', by simp, h2⟩
            · exact Or.inl h2
          · exact Or.inr ⟨v, List.mem_cons_of_mem _ hv, h2⟩
      · exact ⟨rfl, Or.inl rfl⟩
  exact key input s.constants

/-- Undefined constants are rejected: a successful `setShellConstants` on a map (distinct keys) stores every
supplied value. -/
theorem C14_constants_stored (s s' : Shell K) (input : SMap Str K) (hs : SMap.Sorted input)
    (h : s.setShellConstants input = (.ok (), s')) :
    ∀ k v, input.find? k = some v → s'.constants.find? k = some v := by
  have key : ∀ (input : SMap Str K) (c : SMap Str K), SMap.Sorted input →
      (constantsLoop input c).1 = .ok () →
      (∀ k, SMap.find? input k = none → SMap.find? (constantsLoop input c).2 k = SMap.find? c k) ∧
      ∀ k v, SMap.find? input k = some v → SMap.find? (constantsLoop input c).2 k = some v := by
    intro input
    induction input with
    | nil => intro c _ _; simp [constantsLoop]
    | cons e r ih =>
      intro c hs hok
      obtain ⟨k', v'⟩ := e
      have hs' := SMap.sorted_cons.1 hs
      unfold constantsLoop at hok ⊢
      split at hok
      · rename_i hmem
        simp only [hmem, if_true]
        obtain ⟨h1, h2⟩ := ih (c.insert k' v') hs'.2 hok
        refine ⟨?_, ?_⟩
        · intro k hk
          rw [SMap.find?_cons] at hk
          split at hk
          · simp at hk
          · rename_i hne
            rw [h1 k hk, SMap.find?_insert, if_neg hne]
        · intro k v hk
          rw [SMap.find?_cons] at hk
          split at hk
          · rename_i heq
            have heq' : k' = k := heq
            subst heq'
            simp only [Option.some.injEq] at hk
            subst hk
            rw [h1 k', SMap.find?_insert, if_pos rfl]
            rw [SMap.find?_eq_none_iff]
            intro x hx
            exact ne_of_gt (hs'.1 x hx)
          · exact h2 k v hk
      · simp at hok
  unfold setShellConstants at h
  simp only [Prod.mk.injEq] at h
  obtain ⟨h1, rfl⟩ := h
  exact (key input s.constants hs h1).2

example : ∃ s s' : Shell ℚ, mk? "L1".toList = .ok s ∧
    s.setShellConstants [("f13".toList, 1/2), ("omega".toList, 1/10)] = (.ok (), s') ∧
    s'.constants = [("f12".toList, 0), ("f13".toList, 1/2), ("omega".toList, 1/10)] := by
  refine ⟨_, _, rfl, rfl, by decide +kernel⟩

end Fisx.Shell
