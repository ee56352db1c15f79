import Verif.Shell

/-!
# Helper lemmas about the shell model
-/

set_option linter.unusedSectionVars false

namespace Fisx.Shell

variable {K : Type} [Field K] [LinearOrder K] [IsStrictOrderedRing K]

theorem sum_map_div (l : List K) (t : K) : (l.map (fun a => a / t)).sum = l.sum / t := by
  induction l with
  | nil => simp
  | cons a r ih => simp [ih, add_div]

/-- Entries that are not positive do not contribute to a sum of non-negative entries. -/
theorem sum_filter_pos (m : SMap Str K) (p : Str × K → Bool) (h : ∀ e ∈ m, 0 ≤ e.2) :
    ((m.filter (fun e => decide (e.2 > 0) && p e)).map Prod.snd).sum
      = ((m.filter p).map Prod.snd).sum := by
  induction m with
  | nil => rfl
  | cons e r ih =>
    have ih' := ih (fun x hx => h x (List.mem_cons_of_mem _ hx))
    by_cases hp : p e = true
    · by_cases h0 : e.2 > 0
      · simp [h0, hp, ih']
      · have : e.2 = 0 := le_antisymm (not_lt.1 h0) (h e (by simp))
        simp [hp, ih', this]
    · simp [hp, ih']

theorem radiativeLoop_sorted (name : Str) (labels : List Str) (values : List K) (i : Nat)
    (m : SMap Str K) (hs : SMap.Sorted m) : SMap.Sorted (radiativeLoop name labels values i m).2 := by
  induction labels generalizing i m with
  | nil => exact hs
  | cons l r ih =>
    unfold radiativeLoop
    split
    · exact hs
    · split
      · exact ih _ _ (SMap.insert_sorted hs _ _)
      · exact hs

theorem radiativeLoop_nonneg (name : Str) (labels : List Str) (values : List K) (i : Nat)
    (m : SMap Str K) (hm : ∀ e ∈ m, 0 ≤ e.2) (hv : ∀ v ∈ values, 0 ≤ v) :
    ∀ e ∈ (radiativeLoop name labels values i m).2, 0 ≤ e.2 := by
  induction labels generalizing i m with
  | nil => exact hm
  | cons l r ih =>
    unfold radiativeLoop
    split
    · exact hm
    · split
      · rename_i k _ v hget
        apply ih
        intro e he
        rcases SMap.mem_insert he with rfl | he
        · unfold vget at hget
          split at hget
          · rename_i a ha
            have : a = v := by simpa using hget
            subst this
            exact hv _ (List.mem_of_getElem? ha)
          · simp at hget
        · exact hm e he
      · exact hm

theorem nonradiativeLoop_sorted (labels : List Str) (values : List K) (i : Nat)
    (m : SMap Str K) (hs : SMap.Sorted m) : SMap.Sorted (nonradiativeLoop labels values i m).2 := by
  induction labels generalizing i m with
  | nil => exact hs
  | cons l r ih =>
    unfold nonradiativeLoop
    split
    · exact ih _ _ (SMap.insert_sorted hs _ _)
    · exact hs

theorem nonradiativeLoop_nonneg (labels : List Str) (values : List K) (i : Nat)
    (m : SMap Str K) (hm : ∀ e ∈ m, 0 ≤ e.2) (hv : ∀ v ∈ values, 0 ≤ v) :
    ∀ e ∈ (nonradiativeLoop labels values i m).2, 0 ≤ e.2 := by
  induction labels generalizing i m with
  | nil => exact hm
  | cons l r ih =>
    unfold nonradiativeLoop
    split
    · rename_i v hget
      apply ih
      intro e he
      rcases SMap.mem_insert he with rfl | he
      · unfold vget at hget
        split at hget
        · rename_i a ha
          have : a = v := by simpa using hget
          subst this
          exact hv _ (List.mem_of_getElem? ha)
        · simp at hget
      · exact hm e he
    · exact hm

theorem fluorescenceRatios_eq (rad : SMap Str K) (hs : SMap.Sorted rad) :
    fluorescenceRatios rad = (rad.filter (fun e => decide (e.2 > 0 ∧ e.1 ≠ total))).map
      (fun e => (e.1, e.2 / ((rad.filter (fun e => e.1 ≠ total)).map Prod.snd).sum)) := by
  unfold fluorescenceRatios
  exact SMap.foldl_condInsert (fun e : Str × K => e.2 > 0 ∧ e.1 ≠ total) _ hs

/-- Sum of the values of a map transformed by a division. -/
theorem sum_ratio (m : SMap Str K) (t : K) :
    ((m.map (fun e => (e.1, e.2 / t))).map Prod.snd).sum = (m.map Prod.snd).sum / t := by
  rw [← sum_map_div, List.map_map, List.map_map]
  rfl

/-! ### Coster-Kronig groups -/

theorem ckGroupRaw_eq (n : SMap Str K) (hs : SMap.Sorted n) (pre : Str) :
    ckGroupRaw n pre = n.filter (fun e => decide (e.2 > 0 ∧ startsWith e.1 pre = true)) := by
  unfold ckGroupRaw
  rw [SMap.foldl_condInsert (fun e : Str × K => e.2 > 0 ∧ startsWith e.1 pre = true) Prod.snd hs]
  conv_rhs => rw [← List.map_id (List.filter _ n)]
  rfl

theorem ckGroupTotal_nonneg (n : SMap Str K) (pre : Str) : 0 ≤ ckGroupTotal n pre := by
  unfold ckGroupTotal
  apply List.sum_nonneg
  intro x hx
  obtain ⟨e, he, rfl⟩ := List.mem_map.1 hx
  have := (List.mem_filter.1 he).2
  simp only [decide_eq_true_eq] at this
  exact le_of_lt this.1

theorem ckGroupTotal_pos_iff (n : SMap Str K) (pre : Str) :
    0 < ckGroupTotal n pre ↔ ∃ e ∈ n, 0 < e.2 ∧ startsWith e.1 pre = true := by
  constructor
  · intro h
    unfold ckGroupTotal at h
    by_contra hno
    push Not at hno
    have : n.filter (fun e => decide (e.2 > 0 ∧ startsWith e.1 pre = true)) = [] := by
      rw [List.filter_eq_nil_iff]
      intro e he
      simp only [decide_eq_true_eq, not_and]
      intro h1
      exact hno e he h1
    rw [this] at h
    simp at h
  · rintro ⟨e, he, h1, h2⟩
    unfold ckGroupTotal
    apply lt_of_lt_of_le h1
    apply List.single_le_sum
    · intro x hx
      obtain ⟨f, hf, rfl⟩ := List.mem_map.1 hx
      have := (List.mem_filter.1 hf).2
      simp only [decide_eq_true_eq] at this
      exact le_of_lt this.1
    · apply List.mem_map_of_mem
      rw [List.mem_filter]
      exact ⟨he, by simp [h1, h2]⟩

/-- What a Coster-Kronig group contains apart from its total. -/
theorem ckGroup_find? (n : SMap Str K) (hs : SMap.Sorted n) (pre k : Str) (hk : k ≠ total) (r : K) :
    (ckGroup n pre).find? k = some r ↔
      ∃ v, n.find? k = some v ∧ 0 < v ∧ startsWith k pre = true ∧ r = v / ckGroupTotal n pre := by
  unfold ckGroup
  simp only [SMap.find?_insert]
  rw [if_neg (fun h => hk h.symm)]
  have hraw := ckGroupRaw_eq n hs pre
  have hfilter : ∀ v, SMap.find? (ckGroupRaw n pre) k = some v ↔
      (n.find? k = some v ∧ 0 < v ∧ startsWith k pre = true) := by
    intro v
    rw [hraw, SMap.find?_filter hs]
    cases hf : SMap.find? n k with
    | none => simp
    | some w =>
      simp only [Option.filter_some, decide_eq_true_eq]
      constructor
      · intro h
        split at h
        · rename_i hc
          simp only [Option.some.injEq] at h
          subst h
          exact ⟨rfl, hc⟩
        · simp at h
      · rintro ⟨h1, h2⟩
        simp only [Option.some.injEq] at h1
        subst h1
        simp [h2]
  by_cases ht : ckGroupTotal n pre > 0
  · rw [if_pos ht, SMap.find?_mapVal]
    constructor
    · intro h
      obtain ⟨v, hv, hr⟩ := Option.map_eq_some_iff.1 h
      obtain ⟨h1, h2, h3⟩ := (hfilter v).1 hv
      exact ⟨v, h1, h2, h3, hr.symm⟩
    · rintro ⟨v, h1, h2, h3, rfl⟩
      rw [(hfilter v).2 ⟨h1, h2, h3⟩]
      rfl
  · rw [if_neg ht]
    constructor
    · intro h
      exfalso
      obtain ⟨h1, h2, h3⟩ := (hfilter r).1 h
      exact ht ((ckGroupTotal_pos_iff n pre).2 ⟨(k, r), SMap.mem_of_find? h1, h2, h3⟩)
    · rintro ⟨v, h1, h2, h3, _⟩
      exact absurd ((ckGroupTotal_pos_iff n pre).2 ⟨(k, v), SMap.mem_of_find? h1, h2, h3⟩) ht

theorem ckGroup_mem (n : SMap Str K) (hs : SMap.Sorted n) (pre k : Str) (hk : k ≠ total) :
    (ckGroup n pre).mem k = true ↔ ∃ v, n.find? k = some v ∧ 0 < v ∧ startsWith k pre = true := by
  unfold SMap.mem
  rw [Option.isSome_iff_exists]
  constructor
  · rintro ⟨r, hr⟩
    obtain ⟨v, h1, h2, h3, _⟩ := (ckGroup_find? n hs pre k hk r).1 hr
    exact ⟨v, h1, h2, h3⟩
  · rintro ⟨v, h1, h2, h3⟩
    exact ⟨_, (ckGroup_find? n hs pre k hk _).2 ⟨v, h1, h2, h3, rfl⟩⟩

theorem ckGroup_sorted (n : SMap Str K) (hs : SMap.Sorted n) (pre : Str) :
    SMap.Sorted (ckGroup n pre) := by
  unfold ckGroup
  apply SMap.insert_sorted
  rw [ckGroupRaw_eq n hs]
  split
  · exact SMap.sorted_mapVal (SMap.sorted_filter hs _) (fun e => e.2 / ckGroupTotal n pre)
  · exact SMap.sorted_filter hs _

/-- The prefix does not match the label of the total. -/
def NotTotal (pre : Str) : Prop := startsWith total pre = false

/-- Without its TOTAL entry, a group is the list of normalised positive transitions. -/
theorem ckGroup_filter (n : SMap Str K) (hs : SMap.Sorted n) (pre : Str) (hpre : NotTotal pre) :
    (ckGroup n pre).filter (fun e => e.1 ≠ total)
      = (n.filter (fun e => decide (e.2 > 0 ∧ startsWith e.1 pre = true))).map
          (fun e => (e.1, e.2 / ckGroupTotal n pre)) := by
  apply SMap.ext_find? (SMap.sorted_filter (ckGroup_sorted n hs pre) _)
    (SMap.sorted_mapVal (SMap.sorted_filter hs _) (fun e => e.2 / ckGroupTotal n pre))
  intro k
  rw [SMap.find?_filter (ckGroup_sorted n hs pre), SMap.find?_mapVal, SMap.find?_filter hs]
  by_cases hk : k = total
  · subst hk
    have h1 : Option.filter (fun v : K => decide ((total, v).1 ≠ total)) ((ckGroup n pre).find? total) = none := by
      cases (ckGroup n pre).find? total <;> simp
    rw [h1]
    cases hf : SMap.find? n total with
    | none => rfl
    | some w =>
      have : startsWith total pre = false := hpre
      simp [Option.filter_some, this]
  · have h1 : Option.filter (fun v : K => decide ((k, v).1 ≠ total)) ((ckGroup n pre).find? k)
        = (ckGroup n pre).find? k := by
      cases (ckGroup n pre).find? k <;> simp [hk]
    rw [h1]
    cases hg : (ckGroup n pre).find? k with
    | none =>
      cases hf : SMap.find? n k with
      | none => rfl
      | some w =>
        by_cases hc : w > 0 ∧ startsWith k pre = true
        · have := (ckGroup_find? n hs pre k hk (w / ckGroupTotal n pre)).2 ⟨w, hf, hc.1, hc.2, rfl⟩
          rw [hg] at this
          simp at this
        · simp [Option.filter_some, hc]
    | some r =>
      obtain ⟨v, h1, h2, h3, h4⟩ := (ckGroup_find? n hs pre k hk r).1 hg
      rw [h1]
      simp [Option.filter_some, h2, h3, h4]

theorem ckGroup_sum (n : SMap Str K) (hs : SMap.Sorted n) (pre : Str) (hpre : NotTotal pre)
    (hpos : 0 < ckGroupTotal n pre) :
    (((ckGroup n pre).filter (fun e => e.1 ≠ total)).map Prod.snd).sum = 1 := by
  rw [ckGroup_filter n hs pre hpre, sum_ratio]
  exact div_self (ne_of_gt hpos)

/-! ### Partition of a map by prefixes -/

/-- Pairwise disjoint predicates split a sum. -/
theorem sum_partition {ι : Type} (m : SMap Str K) (is : List ι) (p : ι → Str × K → Bool)
    (hdisj : is.Pairwise (fun i j => ∀ e, ¬ (p i e = true ∧ p j e = true))) :
    (is.map (fun i => ((m.filter (p i)).map Prod.snd).sum)).sum
      + ((m.filter (fun e => ! is.any (fun i => p i e))).map Prod.snd).sum = (m.map Prod.snd).sum := by
  induction is generalizing m with
  | nil => simp
  | cons i r ih =>
    rw [List.pairwise_cons] at hdisj
    have h1 := ih m hdisj.2
    rw [List.map_cons, List.sum_cons]
    have hsplit : ((m.filter (fun e => ! r.any (fun j => p j e))).map Prod.snd).sum
        = ((m.filter (p i)).map Prod.snd).sum
          + ((m.filter (fun e => ! (i :: r).any (fun j => p j e))).map Prod.snd).sum := by
      clear h1
      induction m with
      | nil => simp
      | cons e t iht =>
        by_cases hi : p i e = true
        · have hr : r.any (fun j => p j e) = false := by
            rw [List.any_eq_false]
            intro j hj hpj
            exact hdisj.1 j hj e ⟨hi, hpj⟩
          simp only [List.filter_cons, hi, if_true, hr, Bool.not_false, List.map_cons, List.sum_cons,
            List.any_cons, Bool.true_or, Bool.not_true, Bool.false_eq_true, if_false, iht]
          ring
        · have hi' : p i e = false := by simpa using hi
          by_cases hr : r.any (fun j => p j e) = true
          · simp only [List.filter_cons, hi', hr, Bool.not_true, Bool.false_eq_true, if_false,
              List.any_cons, Bool.false_or, iht]
          · have hr' : r.any (fun j => p j e) = false := by simpa using hr
            simp only [List.filter_cons, hi', hr', Bool.not_false, if_true, Bool.false_eq_true, if_false,
              List.any_cons, Bool.false_or, List.map_cons, List.sum_cons, iht]
            ring
    rw [hsplit] at h1
    rw [← h1]
    ring

theorem digit_inj {i j : Nat} (hi : i < 10) (hj : j < 10) (h : digit i = digit j) : i = j := by
  have key : ∀ n < 10, (digit n).toNat = 48 + n := by decide
  have h1 := key i hi
  rw [h, key j hj] at h1
  omega

theorem startsWith_same_length {a p q : Str} (hl : p.length = q.length) (hp : startsWith a p = true)
    (hq : startsWith a q = true) : p = q := by
  simp only [startsWith, decide_eq_true_eq] at hp hq
  rw [← hp, ← hq, hl]

theorem ckPrefix_disjoint (name : Str) {i j : Nat} (hi : i < 10) (hj : j < 10) (hne : i ≠ j) (a : Str) :
    ¬ (startsWith a (ckPrefix name i) = true ∧ startsWith a (ckPrefix name j) = true) := by
  rintro ⟨h1, h2⟩
  have := startsWith_same_length (by simp [ckPrefix]) h1 h2
  unfold ckPrefix at this
  simp only [List.append_assoc, List.append_cancel_left_eq, List.cons.injEq, and_true] at this
  exact hne (digit_inj hi hj this)

end Fisx.Shell
