import Verif.ShellProps

/-!
# Properties of `fisx::Shell`: C13 (non-radiative ratios), C15 (vacancy transfer), C58 (short labels)
-/

set_option linter.unusedSectionVars false

namespace Fisx.Shell

variable {K : Type} [Field K] [LinearOrder K] [IsStrictOrderedRing K]

/-! ## Specification -/

/-- The subshells of the same main shell lying outside a given subshell. -/
def outerSubshells (name : Str) : List Nat :=
  if name = "L1".toList then [2, 3] else if name = "L2".toList then [3]
  else if name = "M1".toList then [2, 3, 4, 5] else if name = "M2".toList then [3, 4, 5]
  else if name = "M3".toList then [4, 5] else if name = "M4".toList then [5] else []

/-- The label is the one of a Coster-Kronig transition from the shell to its subshell `i`: "L1-L3..." -/
def IsCK (name : Str) (i : Nat) (label : Str) : Prop := (name ++ ['-'] ++ name.take 1 ++ [digit i]) <+: label

/-- Sum of the positive rates of the Coster-Kronig transitions to subshell `i`. -/
def ckSum (name : Str) (n : SMap Str K) (i : Nat) : K :=
  ((n.filter (fun e => decide (0 < e.2 ∧ (name ++ ['-'] ++ name.take 1 ++ [digit i]) <+: e.1))).map
    Prod.snd).sum

/-- A state obtained by the public API from a constructed shell. -/
def Reachable (s : Shell K) : Prop := ∃ name s0 ops, mk? name = .ok s0 ∧ s = run s0 ops

/-! ## Structure of a reachable shell -/

/-- Identification data agree with the constructor. -/
def WF (s : Shell K) : Prop :=
  ∃ s0 : Shell K, mk? s.name = .ok s0 ∧ s.mainIndex = s0.mainIndex ∧ s.subIndex = s0.subIndex ∧
    s.constants.map Prod.fst = s0.constants.map Prod.fst ∧ SMap.Sorted s.constants

theorem keys_insert_mem {m : SMap Str K} (hs : SMap.Sorted m) {k : Str} {v : K} (h : m.mem k = true) :
    (m.insert k v).map Prod.fst = m.map Prod.fst := by
  induction m with
  | nil => simp [SMap.mem] at h
  | cons e t ih =>
    obtain ⟨k', v'⟩ := e
    have hs' := SMap.sorted_cons.1 hs
    unfold SMap.insert
    by_cases hk : k' = k
    · subst hk
      simp
    · have hm : SMap.mem t k = true := by
        unfold SMap.mem at h ⊢
        rwa [SMap.find?_cons, if_neg hk] at h
      have : ¬ k < k' := by
        unfold SMap.mem at hm
        obtain ⟨w, hw⟩ := Option.isSome_iff_exists.1 hm
        have := hs'.1 _ (SMap.mem_of_find? hw)
        exact not_lt.2 (le_of_lt this)
      simp [this, hk, ih hs'.2 hm]

theorem constantsLoop_keys (input : List (Str × K)) (c : SMap Str K) (hs : SMap.Sorted c) :
    (constantsLoop input c).2.map Prod.fst = c.map Prod.fst ∧ SMap.Sorted (constantsLoop input c).2 := by
  induction input generalizing c with
  | nil => exact ⟨rfl, hs⟩
  | cons e r ih =>
    obtain ⟨k, v⟩ := e
    unfold constantsLoop
    split
    · rename_i hm
      obtain ⟨h1, h2⟩ := ih (c.insert k v) (SMap.insert_sorted hs k v)
      exact ⟨by rw [h1, keys_insert_mem hs hm], h2⟩
    · exact ⟨rfl, hs⟩

theorem initialConstants_sorted (name : Str) (main : Int) (idx : Nat) :
    SMap.Sorted (initialConstants name main idx : SMap Str K) := by
  unfold initialConstants
  have base : SMap.Sorted (SMap.insert [] "omega".toList 0 : SMap Str K) :=
    SMap.insert_sorted SMap.sorted_nil _ _
  simp only
  split
  · generalize List.range' (idx + 1) _ = l
    revert base
    generalize (SMap.insert [] "omega".toList 0 : SMap Str K) = m
    induction l generalizing m with
    | nil => intro h; exact h
    | cons i r ih => intro h; exact ih _ (SMap.insert_sorted h _ _)
  · exact base

theorem mk?_constants {name : Str} {s : Shell K} (h : mk? name = .ok s) :
    s.name = name ∧ SMap.Sorted s.constants ∧ s.radiative = [] ∧ s.nonradiative = [] ∧ s.auger = [] ∧
    s.ck = [] ∧ s.fluorescence = [] := by
  have key : ∀ idx, (Outcome.ok
      { name := name, mainIndex := mainIndexOf name, subIndex := idx,
        constants := initialConstants name (mainIndexOf name) idx,
        radiative := [], nonradiative := [], auger := [], ck := [], fluorescence := [] }
        : Outcome (Shell K)) = .ok s →
      s.name = name ∧ SMap.Sorted s.constants ∧ s.radiative = [] ∧ s.nonradiative = [] ∧ s.auger = [] ∧
        s.ck = [] ∧ s.fluorescence = [] := by
    intro idx h
    simp only [Outcome.ok.injEq] at h
    subst h
    exact ⟨rfl, initialConstants_sorted _ _ _, rfl, rfl, rfl, rfl, rfl⟩
  unfold mk? at h
  split at h
  · simp at h
  · split at h
    · simp at h
    · simp only at h
      split at h
      · split at h
        · simp at h
        · split at h
          · simp at h
          · split at h
            · simp at h
            · split at h
              · simp at h
              · exact key _ h
      · exact key _ h

theorem wf_mk {name : Str} {s : Shell K} (h : mk? name = .ok s) : WF s := by
  obtain ⟨h1, h2, _⟩ := mk?_constants h
  exact ⟨s, by rw [h1, h], rfl, rfl, rfl, h2⟩

theorem step_ident (s : Shell K) (op : Op K) :
    (s.step op).2.name = s.name ∧ (s.step op).2.mainIndex = s.mainIndex ∧
    (s.step op).2.subIndex = s.subIndex := by
  cases op with
  | setRadiative l v => simp only [step, setRadiative]; split <;> exact ⟨rfl, rfl, rfl⟩
  | setRadiativeMap m =>
    simp only [step, setRadiativeMap, setRadiative]; split <;> exact ⟨rfl, rfl, rfl⟩
  | setNonradiative l v => simp only [step, setNonradiative]; split <;> exact ⟨rfl, rfl, rfl⟩
  | setNonradiativeMap m =>
    simp only [step, setNonradiativeMap, setNonradiative]; split <;> exact ⟨rfl, rfl, rfl⟩
  | setNonradiativeChars e => exact ⟨rfl, rfl, rfl⟩
  | setShellConstants m => exact ⟨rfl, rfl, rfl⟩

theorem step_constants (s : Shell K) (op : Op K) :
    (∃ m, op = .setShellConstants m) ∨ (s.step op).2.constants = s.constants := by
  cases op with
  | setRadiative l v => right; simp only [step, setRadiative]; split <;> rfl
  | setRadiativeMap m => right; simp only [step, setRadiativeMap, setRadiative]; split <;> rfl
  | setNonradiative l v => right; simp only [step, setNonradiative]; split <;> rfl
  | setNonradiativeMap m => right; simp only [step, setNonradiativeMap, setNonradiative]; split <;> rfl
  | setNonradiativeChars e => right; rfl
  | setShellConstants m => exact Or.inl ⟨m, rfl⟩

theorem wf_step {s : Shell K} (h : WF s) (op : Op K) : WF (s.step op).2 := by
  obtain ⟨s0, h1, h2, h3, h4, h5⟩ := h
  obtain ⟨i1, i2, i3⟩ := step_ident s op
  refine ⟨s0, by rw [i1, h1], by rw [i2, h2], by rw [i3, h3], ?_⟩
  rcases step_constants s op with ⟨m, rfl⟩ | hc
  · obtain ⟨k1, k2⟩ := constantsLoop_keys m s.constants h5
    exact ⟨by rw [← h4]; exact k1, k2⟩
  · rw [hc]; exact ⟨h4, h5⟩

theorem wf_reachable {s : Shell K} (h : Reachable s) : WF s := by
  obtain ⟨name, s0, ops, h0, rfl⟩ := h
  have : WF s0 := wf_mk h0
  clear h0
  induction ops generalizing s0 with
  | nil => exact this
  | cons op r ih => exact ih _ (wf_step this op)

/-- Everything needed about the subshell structure of a well formed shell. -/
theorem wf_targets {s : Shell K} (h : WF s) :
    s.ckTargets = outerSubshells s.name ∧ s.name ∈ validNames ∧
    s.constants.map Prod.fst = (outerSubshells s.name).map (fij s.name) ++ ["omega".toList] := by
  obtain ⟨s0, h1, h2, h3, h4, _⟩ := h
  have hv : s.name ∈ validNames := by
    by_contra hcon
    rw [(C57_constructor s.name).2 hcon] at h1
    simp at h1
  have hv' := hv
  simp only [validNames, List.mem_cons, List.not_mem_nil, or_false] at hv'
  rcases hv' with hn | hn | hn | hn | hn | hn | hn | hn | hn <;>
  · rw [hn] at h1
    rw [h4]
    have h1' := Outcome.ok.inj h1
    rw [← h1'] at h2 h3 ⊢
    refine ⟨?_, hv, ?_⟩
    · unfold ckTargets
      rw [h2, h3, hn]
      rfl
    · rw [hn]; rfl

/-- Closed facts about the nine names. -/
theorem names_facts (name : Str) (h : name ∈ validNames) :
    (outerSubshells name).Nodup ∧ (∀ i ∈ outerSubshells name, i < 10) ∧
    (∀ i ∈ outerSubshells name, NotTotal (ckPrefix name i)) ∧ name.take 1 ≠ ['T'] ∧ name ≠ [] ∧
    ((outerSubshells name).map (fij name)).Pairwise (· < ·) := by
  simp only [validNames, List.mem_cons, List.not_mem_nil, or_false] at h
  unfold NotTotal
  rcases h with rfl | rfl | rfl | rfl | rfl | rfl | rfl | rfl | rfl <;> decide

/-! ## What `_updateNonradiativeRatios` computes -/

theorem startsWith_iff (a p : Str) : startsWith a p = true ↔ p <+: a := by
  unfold startsWith
  rw [decide_eq_true_eq, List.prefix_iff_eq_take, eq_comm]

theorem ckSum_eq (name : Str) (n : SMap Str K) (i : Nat) :
    ckSum name n i = ckGroupTotal n (ckPrefix name i) := by
  unfold ckSum ckGroupTotal ckPrefix
  congr 2
  apply List.filter_congr
  intro e _
  rw [decide_eq_decide, startsWith_iff]

/-- The nonradiative map after the update: the total is there. -/
def withTotal (n : SMap Str K) : SMap Str K := if n.mem total then n else n.insert total (rateSum n)

theorem withTotal_sorted {n : SMap Str K} (hs : SMap.Sorted n) : SMap.Sorted (withTotal n) := by
  unfold withTotal; split
  · exact hs
  · exact SMap.insert_sorted hs _ _

theorem withTotal_find? (n : SMap Str K) (k : Str) (hk : k ≠ total) :
    (withTotal n).find? k = n.find? k := by
  unfold withTotal; split
  · rfl
  · rw [SMap.find?_insert, if_neg (fun h => hk h.symm)]

theorem withTotal_mem (n : SMap Str K) : (withTotal n).mem total = true := by
  unfold withTotal; split
  · assumption
  · unfold SMap.mem; rw [SMap.find?_insert, if_pos rfl]; rfl

theorem withTotal_filter {n : SMap Str K} (hs : SMap.Sorted n) :
    (withTotal n).filter (fun e => decide (e.1 ≠ total)) = n.filter (fun e => decide (e.1 ≠ total)) := by
  apply SMap.ext_find? (SMap.sorted_filter (withTotal_sorted hs) _) (SMap.sorted_filter hs _)
  intro k
  rw [SMap.find?_filter (withTotal_sorted hs), SMap.find?_filter hs]
  by_cases hk : k = total
  · subst hk
    cases (withTotal n).find? total <;> cases n.find? total <;> simp
  · rw [withTotal_find? n k hk]

theorem withTotal_rateSum {n : SMap Str K} (hs : SMap.Sorted n) : rateSum (withTotal n) = rateSum n := by
  unfold rateSum
  rw [withTotal_filter hs]

/-- Auger denominator. -/
def augerTotal (name : Str) (n : SMap Str K) : K :=
  (n.find? total).getD 0 - ((outerSubshells name).map (ckSum name n)).sum

theorem update_nonradiative (s : Shell K) :
    (updateNonradiative s).nonradiative = withTotal s.nonradiative := rfl

theorem update_ck {s : Shell K} (hwf : WF s) :
    (updateNonradiative s).ck = (outerSubshells s.name).map
      (fun i => (fij s.name i, ckGroup (withTotal s.nonradiative) (ckPrefix s.name i))) := by
  have hpw := (names_facts s.name (wf_targets hwf).2.1).2.2.2.2.2
  have : (updateNonradiative s).ck = SMap.ofList (s.ckTargets.map
      (fun i => (fij s.name i, ckGroup (withTotal s.nonradiative) (ckPrefix s.name i)))) := by
    unfold SMap.ofList
    rw [List.foldl_map]
    rfl
  rw [this, (wf_targets hwf).1]
  apply SMap.ofList_eq_self
  unfold SMap.Sorted
  rw [List.pairwise_map] at hpw ⊢
  exact hpw

/-- The Auger ratios as a filtered map. -/
theorem update_auger {s : Shell K} (hwf : WF s) (hs : SMap.Sorted s.nonradiative) :
    (updateNonradiative s).auger = SMap.insert
      ((withTotal s.nonradiative).filter (fun e => decide (0 < e.2 ∧ e.1 ≠ total ∧
          ∀ i ∈ outerSubshells s.name, ¬ startsWith e.1 (ckPrefix s.name i) = true)) |>.map
        (fun e => (e.1, e.2 / augerTotal s.name (withTotal s.nonradiative))))
      total (augerTotal s.name (withTotal s.nonradiative)) := by
  set n := withTotal s.nonradiative with hn
  have hns : SMap.Sorted n := withTotal_sorted hs
  have htot : ((s.ckTargets.map (fun i => ckGroupTotal n (ckPrefix s.name i))).sum)
      = ((outerSubshells s.name).map (ckSum s.name n)).sum := by
    rw [(wf_targets hwf).1]
    congr 1
    apply List.map_congr_left
    intro i _
    rw [ckSum_eq]
  have hA : (n.find? total).getD 0 - (s.ckTargets.map (fun i => ckGroupTotal n (ckPrefix s.name i))).sum
      = augerTotal s.name n := by
    rw [htot]; rfl
  have hinner : ∀ (P : Str × K → Prop) [DecidablePred P],
      n.foldl (fun (m : SMap Str K) e => if P e then m.insert e.1 (e.2 / augerTotal s.name n) else m) []
      = (n.filter (fun e => decide (P e))).map (fun e => (e.1, e.2 / augerTotal s.name n)) := by
    intro P _
    exact SMap.foldl_condInsert P (fun e => e.2 / augerTotal s.name n) hns
  have hdef : (updateNonradiative s).auger = SMap.insert (n.foldl (fun (m : SMap Str K) e =>
      if e.2 > 0 ∧ (decide ((s.ckTargets.map (fun i => ckGroupTotal n (ckPrefix s.name i))).sum > 0) &&
          s.ckTargets.any (fun i => (ckGroup n (ckPrefix s.name i)).mem e.1)) = false ∧ e.1 ≠ total
      then m.insert e.1 (e.2 / ((n.find? total).getD 0 -
        (s.ckTargets.map (fun i => ckGroupTotal n (ckPrefix s.name i))).sum)) else m) []) total
      ((n.find? total).getD 0 - (s.ckTargets.map (fun i => ckGroupTotal n (ckPrefix s.name i))).sum) := rfl
  rw [hdef, hA, hinner]
  congr 2
  apply List.filter_congr
  intro e he
  rw [decide_eq_decide]
  have hfind : n.find? e.1 = some e.2 := SMap.find?_of_mem hns he
  constructor
  · rintro ⟨h1, h2, h3⟩
    refine ⟨h1, h3, ?_⟩
    intro i hi hsw
    rw [← (wf_targets hwf).1] at hi
    have hpos : 0 < ckGroupTotal n (ckPrefix s.name i) :=
      (ckGroupTotal_pos_iff n _).2 ⟨e, he, h1, hsw⟩
    have hsum : 0 < (s.ckTargets.map (fun i => ckGroupTotal n (ckPrefix s.name i))).sum := by
      refine lt_of_lt_of_le hpos (List.single_le_sum ?_ _ (List.mem_map_of_mem hi))
      intro x hx
      obtain ⟨j, _, rfl⟩ := List.mem_map.1 hx
      exact ckGroupTotal_nonneg n _
    have hmem : (ckGroup n (ckPrefix s.name i)).mem e.1 = true :=
      (ckGroup_mem n hns _ e.1 h3).2 ⟨e.2, hfind, h1, hsw⟩
    have hany : s.ckTargets.any (fun i => (ckGroup n (ckPrefix s.name i)).mem e.1) = true :=
      List.any_eq_true.2 ⟨i, hi, hmem⟩
    rw [hany] at h2
    simp only [Bool.and_true, decide_eq_false_iff_not] at h2
    exact h2 hsum
  · rintro ⟨h1, h2, h3⟩
    refine ⟨h1, ?_, h2⟩
    have hany : s.ckTargets.any (fun i => (ckGroup n (ckPrefix s.name i)).mem e.1) = false := by
      rw [List.any_eq_false]
      intro i hi hm
      obtain ⟨v, hv1, hv2, hv3⟩ := (ckGroup_mem n hns _ e.1 h2).1 hm
      rw [(wf_targets hwf).1] at hi
      exact h3 i hi hv3
    rw [hany, Bool.and_false]

/-- The numerators: positive rates that are neither the total nor Coster-Kronig sum to what is left. -/
theorem auger_numerators (name : Str) (hname : name ∈ validNames) (n : SMap Str K)
    (hnn : ∀ e ∈ n, 0 ≤ e.2) :
    ((n.filter (fun e => decide (0 < e.2 ∧ e.1 ≠ total ∧
          ∀ i ∈ outerSubshells name, ¬ startsWith e.1 (ckPrefix name i) = true))).map Prod.snd).sum
      = rateSum n - ((outerSubshells name).map (ckSum name n)).sum := by
  obtain ⟨hnd, hlt, hnt, _⟩ := names_facts name hname
  set m := n.filter (fun e => decide (e.2 > 0) && decide (e.1 ≠ total)) with hm
  have hpart := sum_partition m (outerSubshells name)
    (fun i e => startsWith e.1 (ckPrefix name i)) (by
      have hpw : (outerSubshells name).Pairwise (fun i j => i ≠ j) := hnd
      have : (outerSubshells name).Pairwise
          (fun i j => i ∈ outerSubshells name ∧ j ∈ outerSubshells name ∧ i ≠ j) := by
        rw [List.pairwise_iff_getElem] at hpw ⊢
        intro a b ha hb hab
        exact ⟨List.getElem_mem ha, List.getElem_mem hb, hpw a b ha hb hab⟩
      exact this.imp (fun ⟨hi, hj, hne⟩ e => ckPrefix_disjoint name (hlt _ hi) (hlt _ hj) hne e.1))
  have h1 : (m.map Prod.snd).sum = rateSum n := sum_filter_pos n (fun e => decide (e.1 ≠ total)) hnn
  have h2 : (outerSubshells name).map
      (fun i => ((m.filter (fun e => startsWith e.1 (ckPrefix name i))).map Prod.snd).sum)
      = (outerSubshells name).map (ckSum name n) := by
    apply List.map_congr_left
    intro i hi
    rw [ckSum_eq]
    unfold ckGroupTotal
    rw [hm, List.filter_filter]
    congr 2
    apply List.filter_congr
    intro e _
    by_cases hsw : startsWith e.1 (ckPrefix name i) = true
    · have : e.1 ≠ total := by
        intro he
        have := hnt i hi
        unfold NotTotal at this
        rw [he, this] at hsw
        simp at hsw
      simp [hsw, this]
    · simp [hsw]
  have h3 : m.filter (fun e => ! (outerSubshells name).any (fun i => startsWith e.1 (ckPrefix name i)))
      = n.filter (fun e => decide (0 < e.2 ∧ e.1 ≠ total ∧
          ∀ i ∈ outerSubshells name, ¬ startsWith e.1 (ckPrefix name i) = true)) := by
    rw [hm, List.filter_filter]
    apply List.filter_congr
    intro e _
    rw [Bool.eq_iff_iff]
    simp only [Bool.and_eq_true, Bool.not_eq_true', List.any_eq_false, decide_eq_true_eq]
    tauto
  rw [h1, h2, h3] at hpart
  rw [← hpart]
  ring

/-! ## C13 -/

theorem setNonradiative_ok {s s' : Shell K} {labels : List Str} {values : List K}
    (h : s.setNonradiative labels values = (.ok (), s')) :
    s' = updateNonradiative { s with nonradiative := (nonradiativeLoop labels values 0 []).2 } := by
  unfold setNonradiative at h
  split at h
  · rename_i m hm
    simp only [Prod.mk.injEq, true_and] at h
    rw [hm]
    exact h.symm
  · rename_i o m hne hm
    simp only [Prod.mk.injEq] at h
    exact absurd h.1 (fun h' => hne (h' ▸ rfl))

/-- **C13** (classification) After a successful `setNonradiativeTransitions` on any shell, with `n` the rates
read back: for each outer subshell `i` the group "fji" contains exactly the positive rates of the labels
"Lj-Li...", each divided by their sum, and these ratios sum to one when there is at least one; every other
positive rate (except TOTAL) is an Auger transition, with its rate divided by the total minus all the
Coster-Kronig rates. -/
theorem C13_channels {s s' : Shell K} {labels : List Str} {values : List K} (hr : Reachable s)
    (h : s.setNonradiative labels values = (.ok (), s')) :
    (∀ i ∈ outerSubshells s.name, ∃ g, s'.ck.find? (fij s.name i) = some g ∧
      (∀ k r, k ≠ total → (g.find? k = some r ↔ ∃ v, s'.nonradiative.find? k = some v ∧ 0 < v ∧
          IsCK s.name i k ∧ r = v / ckSum s.name s'.nonradiative i)) ∧
      (0 < ckSum s.name s'.nonradiative i → rateSum g = 1)) ∧
    (∀ k r, k ≠ total → (s'.auger.find? k = some r ↔ ∃ v, s'.nonradiative.find? k = some v ∧ 0 < v ∧
        (∀ i ∈ outerSubshells s.name, ¬ IsCK s.name i k) ∧
        r = v / ((s'.nonradiative.find? total).getD 0
          - ((outerSubshells s.name).map (ckSum s.name s'.nonradiative)).sum))) ∧
    (∀ i ∈ outerSubshells s.name, ∀ j ∈ outerSubshells s.name, ∀ k,
      IsCK s.name i k → IsCK s.name j k → i = j) := by
  have hs' := setNonradiative_ok h
  have hwf0 := wf_reachable hr
  set s1 : Shell K := { s with nonradiative := (nonradiativeLoop labels values 0 []).2 } with hs1
  have hwf : WF s1 := hwf0
  have hsort : SMap.Sorted s1.nonradiative := nonradiativeLoop_sorted labels values 0 [] SMap.sorted_nil
  have hns := withTotal_sorted hsort
  obtain ⟨_, hname, _⟩ := wf_targets hwf
  obtain ⟨hnd, hlt, hnt, _, _, hpw⟩ := names_facts s.name hname
  have hn : s'.nonradiative = withTotal s1.nonradiative := by rw [hs']; rfl
  refine ⟨?_, ?_, ?_⟩
  · intro i hi
    refine ⟨ckGroup (withTotal s1.nonradiative) (ckPrefix s.name i), ?_, ?_, ?_⟩
    · rw [hs', update_ck hwf]
      apply SMap.find?_of_mem
      · unfold SMap.Sorted
        rw [List.pairwise_map] at hpw ⊢
        exact hpw
      · exact List.mem_map.2 ⟨i, hi, rfl⟩
    · intro k r hk
      rw [ckGroup_find? _ hns _ k hk r, hn, ckSum_eq]
      simp only [startsWith_iff]
      exact Iff.rfl
    · intro hpos
      rw [hn, ckSum_eq] at hpos
      exact ckGroup_sum _ hns _ (hnt i hi) hpos
  · intro k r hk
    rw [hs', update_auger hwf hsort, SMap.find?_insert, if_neg (fun h => hk h.symm), SMap.find?_mapVal,
      SMap.find?_filter hns]
    change _ ↔ ∃ v, (withTotal s1.nonradiative).find? k = some v ∧ _
    cases hf : SMap.find? (withTotal s1.nonradiative) k with
    | none => simp
    | some w =>
      have hiff : (∀ i ∈ outerSubshells s.name, ¬ startsWith k (ckPrefix s.name i) = true) ↔
          (∀ i ∈ outerSubshells s.name, ¬ IsCK s.name i k) := by
        simp only [startsWith_iff]
        exact Iff.rfl
      by_cases hc : 0 < w ∧ ∀ i ∈ outerSubshells s.name, ¬ IsCK s.name i k
      · have hc2 : 0 < w ∧ k ≠ total ∧
            ∀ i ∈ outerSubshells s1.name, ¬ startsWith k (ckPrefix s1.name i) = true :=
          ⟨hc.1, hk, hiff.2 hc.2⟩
        rw [Option.filter_some, if_pos (decide_eq_true hc2)]
        simp only [Option.map_some, Option.some.injEq]
        constructor
        · intro h; exact ⟨w, rfl, hc.1, hc.2, h.symm⟩
        · rintro ⟨v, rfl, _, _, h⟩; exact h.symm
      · have hc2 : ¬ (0 < w ∧ k ≠ total ∧
            ∀ i ∈ outerSubshells s1.name, ¬ startsWith k (ckPrefix s1.name i) = true) :=
          fun hh => hc ⟨hh.1, hiff.1 hh.2.2⟩
        rw [Option.filter_some, if_neg (by simpa using hc2)]
        simp only [Option.map_none, reduceCtorEq, false_iff, Option.some.injEq]
        rintro ⟨v, rfl, h1, h2, _⟩
        exact hc ⟨h1, h2⟩
  · intro i hi j hj k h1 h2
    by_contra hne
    exact ckPrefix_disjoint s.name (hlt i hi) (hlt j hj) hne k
      ⟨(startsWith_iff _ _).2 h1, (startsWith_iff _ _).2 h2⟩

/-- The Auger ratios without the stored total. -/
theorem auger_filter {s : Shell K} (hwf : WF s) (hs : SMap.Sorted s.nonradiative) :
    (updateNonradiative s).auger.filter (fun e => decide (e.1 ≠ total))
      = ((withTotal s.nonradiative).filter (fun e => decide (0 < e.2 ∧ e.1 ≠ total ∧
          ∀ i ∈ outerSubshells s.name, ¬ startsWith e.1 (ckPrefix s.name i) = true))).map
        (fun e => (e.1, e.2 / augerTotal s.name (withTotal s.nonradiative))) := by
  rw [update_auger hwf hs]
  have hns := withTotal_sorted hs
  set l := ((withTotal s.nonradiative).filter (fun e => decide (0 < e.2 ∧ e.1 ≠ total ∧
          ∀ i ∈ outerSubshells s.name, ¬ startsWith e.1 (ckPrefix s.name i) = true))) with hl
  set l2 : SMap Str K := l.map (fun e => (e.1, e.2 / augerTotal s.name (withTotal s.nonradiative))) with hl2
  have hls : SMap.Sorted l2 := SMap.sorted_mapVal (SMap.sorted_filter hns _)
    (fun e => e.2 / augerTotal s.name (withTotal s.nonradiative))
  have hnot : ∀ e ∈ l2, e.1 ≠ total := by
    intro e he
    obtain ⟨f, hf, rfl⟩ := List.mem_map.1 he
    have := (List.mem_filter.1 hf).2
    simp only [decide_eq_true_eq] at this
    exact this.2.1
  apply SMap.ext_find? (SMap.sorted_filter (SMap.insert_sorted hls _ _) _) hls
  intro k
  rw [SMap.find?_filter (SMap.insert_sorted hls _ _), SMap.find?_insert]
  by_cases hk : total = k
  · subst hk
    rw [if_pos rfl, (SMap.find?_eq_none_iff l2 total).2 hnot]
    simp
  · rw [if_neg hk]
    cases SMap.find? l2 k with
    | none => rfl
    | some w =>
      have hk' : ¬ k = total := fun h => hk h.symm
      simp [hk']

theorem auger_rateSum {s : Shell K} (hwf : WF s) (hs : SMap.Sorted s.nonradiative)
    (hnn : ∀ e ∈ withTotal s.nonradiative, 0 ≤ e.2) :
    rateSum (updateNonradiative s).auger
      = (rateSum s.nonradiative - ((outerSubshells s.name).map
          (ckSum s.name (withTotal s.nonradiative))).sum) / augerTotal s.name (withTotal s.nonradiative) := by
  unfold rateSum
  rw [auger_filter hwf hs, sum_ratio, auger_numerators s.name (wf_targets hwf).2.1 _ hnn,
    withTotal_rateSum hs]
  rfl

/-- **C13** (normalisation of the Auger channel) With non-negative rates: the Auger ratios sum to one when the
total is not supplied by the caller (and there is an Auger rate at all), and to at most one when the supplied
total is at least the sum of the rates. -/
theorem C13_auger_sum {s s' : Shell K} {labels : List Str} {values : List K} (hr : Reachable s)
    (h : s.setNonradiative labels values = (.ok (), s')) (hv : ∀ v ∈ values, 0 ≤ v) :
    ((∀ l ∈ labels, l.upper ≠ total) →
      (∃ k r, k ≠ total ∧ s'.auger.find? k = some r) → rateSum s'.auger = 1) ∧
    (rateSum s'.nonradiative ≤ (s'.nonradiative.find? total).getD 0 → rateSum s'.auger ≤ 1) := by
  have hs' := setNonradiative_ok h
  have hwf0 := wf_reachable hr
  set s1 : Shell K := { s with nonradiative := (nonradiativeLoop labels values 0 []).2 } with hs1
  have hwf : WF s1 := hwf0
  have hsort : SMap.Sorted s1.nonradiative := nonradiativeLoop_sorted labels values 0 [] SMap.sorted_nil
  have hnn0 : ∀ e ∈ s1.nonradiative, 0 ≤ e.2 :=
    nonradiativeLoop_nonneg labels values 0 [] (by simp) hv
  have hns := withTotal_sorted hsort
  have hrs : 0 ≤ rateSum s1.nonradiative := by
    unfold rateSum
    apply List.sum_nonneg
    intro x hx
    obtain ⟨e, he, rfl⟩ := List.mem_map.1 hx
    exact hnn0 e (List.mem_of_mem_filter he)
  have hnn : ∀ e ∈ withTotal s1.nonradiative, 0 ≤ e.2 := by
    unfold withTotal
    split
    · exact hnn0
    · intro e he
      rcases SMap.mem_insert he with rfl | he
      · exact hrs
      · exact hnn0 e he
  have hn : s'.nonradiative = withTotal s1.nonradiative := by rw [hs']; rfl
  have hsum := auger_rateSum hwf hsort hnn
  rw [← hs'] at hsum
  obtain ⟨_, hname, _⟩ := wf_targets hwf
  have hnum := auger_numerators s1.name hname _ hnn
  rw [withTotal_rateSum hsort] at hnum
  have hnum0 : 0 ≤ rateSum s1.nonradiative - ((outerSubshells s1.name).map
      (ckSum s1.name (withTotal s1.nonradiative))).sum := by
    rw [← hnum]
    apply List.sum_nonneg
    intro x hx
    obtain ⟨e, he, rfl⟩ := List.mem_map.1 hx
    exact hnn e (List.mem_of_mem_filter he)
  constructor
  · intro hl hex
    have hnot : s1.nonradiative.mem total = false := by
      have key : ∀ (labels : List Str) (i : Nat) (m : SMap Str K), (∀ l ∈ labels, l.upper ≠ total) →
          (nonradiativeLoop labels values i m).2.find? total = m.find? total := by
        intro labels
        induction labels with
        | nil => intro i m _; rfl
        | cons l r ih =>
          intro i m hl
          unfold nonradiativeLoop
          split
          · rw [ih _ _ (fun x hx => hl x (List.mem_cons_of_mem _ hx)), SMap.find?_insert,
              if_neg (hl l (by simp))]
          · rfl
      unfold SMap.mem
      have := key labels 0 [] hl
      change (SMap.find? s1.nonradiative total) = _ at this
      rw [this]
      rfl
    have hT : ((withTotal s1.nonradiative).find? total).getD 0 = rateSum s1.nonradiative := by
      unfold withTotal
      rw [hnot]
      simp
    rw [hsum]
    unfold augerTotal
    rw [hT]
    apply div_self
    obtain ⟨k, r, hk, hf⟩ := hex
    rw [← hnum]
    apply ne_of_gt
    -- the entry itself is one of the summands
    have hmem : (k, r) ∈ s'.auger.filter (fun e => decide (e.1 ≠ total)) :=
      List.mem_filter.2 ⟨SMap.mem_of_find? hf, by simp [hk]⟩
    rw [hs', auger_filter hwf hsort] at hmem
    obtain ⟨e, he, _⟩ := List.mem_map.1 hmem
    have hepos := (List.mem_filter.1 he).2
    simp only [decide_eq_true_eq] at hepos
    refine lt_of_lt_of_le hepos.1 (List.single_le_sum ?_ _ (List.mem_map_of_mem he))
    intro x hx
    obtain ⟨f, hf, rfl⟩ := List.mem_map.1 hx
    exact hnn f (List.mem_of_mem_filter hf)
  · intro hge
    rw [hn, withTotal_rateSum hsort] at hge
    rw [hsum]
    apply div_le_one_of_le₀
    · unfold augerTotal; linarith
    · unfold augerTotal; linarith

/-- An L1 shell with one Auger and two Coster-Kronig transitions meets the hypotheses of the C13 theorems. -/
example : ∃ s s' : Shell ℚ, mk? "L1".toList = .ok s ∧
    s.setNonradiative ["L1-L2M1".toList, "L1-L2M2".toList, "L1-L3M1".toList, "L1-M1M1".toList] [1, 3, 2, 5]
      = (.ok (), s') ∧
    s'.ck.find? "f12".toList = some [("L1-L2M1".toList, 1/4), ("L1-L2M2".toList, 3/4), ("TOTAL".toList, 4)] ∧
    s'.auger = [("L1-M1M1".toList, 1), ("TOTAL".toList, 5)] := by
  refine ⟨_, _, rfl, rfl, ?_⟩
  decide +kernel

end Fisx.Shell
