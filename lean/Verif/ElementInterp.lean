import Verif.Element
import Mathlib.Analysis.SpecialFunctions.Log.Basic

/-!
# Properties of `fisx::Element`: C22 (interpolation)
-/

set_option linter.unusedSectionVars false

namespace Fisx

/-- The real logarithm and exponential. -/
noncomputable instance instTransReal : Trans ℝ := ⟨Real.log, Real.exp⟩

namespace Element

section indices

variable {K : Type} [Field K] [LinearOrder K] [IsStrictOrderedRing K]

theorem findIdx_spec (vec : List K) (x : K) :
    (∀ i (h : i < vec.length), i < vec.findIdx (fun v => decide (¬ v < x)) → vec[i] < x) ∧
    (∀ h : vec.findIdx (fun v => decide (¬ v < x)) < vec.length,
      x ≤ vec[vec.findIdx (fun v => decide (¬ v < x))]) ∧
    vec.findIdx (fun v => decide (¬ v < x)) ≤ vec.length := by
  refine ⟨?_, ?_, List.findIdx_le_length⟩
  · intro i h hi
    have := List.not_of_lt_findIdx hi
    simpa using this
  · intro h
    have := List.findIdx_getElem (w := h)
    simpa using this

/-- **C22** (indices) For every table in ascending order with at least two energies and every energy, the
interpolation uses two consecutive valid indices; they bracket every energy inside the range of the table, they
are the first two below it and the last two above it. -/
theorem C22_indices (vec : List K) (hs : vec.Pairwise (· ≤ ·)) (hlen : 2 ≤ vec.length) (x : K) :
    ∃ i : Nat, ∃ h : i + 1 < vec.length,
      interpolationIndices vec x = ((i : Int), (i : Int) + 1) ∧
      (vec[0] ≤ x → x ≤ vec[vec.length - 1] → vec[i] ≤ x ∧ x ≤ vec[i + 1]) ∧
      (x < vec[0] → i = 0) ∧ (vec[vec.length - 1] < x → i + 2 = vec.length) := by
  obtain ⟨h1, h2, h3⟩ := findIdx_spec vec x
  unfold interpolationIndices
  simp only
  set p := vec.findIdx (fun v => decide (¬ v < x)) with hp
  have mono : ∀ i j (hi : i < vec.length) (hj : j < vec.length), i ≤ j → vec[i] ≤ vec[j] := by
    intro i j hi hj hij
    rcases Nat.lt_or_ge i j with h | h
    · exact List.pairwise_iff_getElem.1 hs i j hi hj h
    · have : i = j := by omega
      subst this; exact le_refl _
  by_cases hend : p = vec.length
  · rw [if_pos hend]
    refine ⟨vec.length - 2, by omega, ?_, ?_, ?_, ?_⟩
    · congr 1 <;> omega
    · intro _ hx
      exact absurd (h1 (vec.length - 1) (by omega) (by omega)) (not_lt.2 hx)
    · intro hx
      have := h1 0 (by omega) (by omega)
      exact absurd this (not_lt.2 (le_of_lt hx))
    · intro _; omega
  · rw [if_neg hend]
    have hplt : p < vec.length := by omega
    by_cases hpos : p > 0
    · rw [if_pos hpos]
      refine ⟨p - 1, by omega, ?_, ?_, ?_, ?_⟩
      · congr 1 <;> omega
      · intro _ _
        refine ⟨le_of_lt (h1 (p - 1) (by omega) (by omega)), ?_⟩
        have := h2 hplt
        have e : p - 1 + 1 = p := by omega
        simp only [e]
        exact this
      · intro hx
        have := h1 0 (by omega) (by omega)
        exact absurd this (not_lt.2 (le_of_lt hx))
      · intro hx
        have a := h2 hplt
        have b := mono p (vec.length - 1) hplt (by omega) (by omega)
        exact absurd (lt_of_le_of_lt (le_trans a b) hx) (lt_irrefl _)
    · have hp0 : p = 0 := by omega
      rw [if_neg hpos]
      refine ⟨0, by omega, rfl, ?_, fun _ => rfl, ?_⟩
      · intro hx _
        refine ⟨hx, ?_⟩
        have a := h2 hplt
        simp only [hp0] at a
        exact le_trans a (mono 0 1 (by omega) (by omega) (by omega))
      · intro hx
        have a := h2 hplt
        simp only [hp0] at a
        have b := mono 0 (vec.length - 1) (by omega) (by omega) (by omega)
        exact absurd (lt_of_le_of_lt (le_trans a b) hx) (lt_irrefl _)

example : ([1, 2, 2, 5] : List ℚ).Pairwise (· ≤ ·) ∧
    interpolationIndices ([1, 2, 2, 5] : List ℚ) 3 = (2, 3) := by decide +kernel

/-- A table with fewer than two energies makes the code use invalid indices: every query reads outside. -/
theorem C22_short_table_violated (a x : K) :
    bracket [a] x = .ub .outOfBounds ∧ bracket ([] : List K) x = .ub .outOfBounds := by
  have h1 : interpolationIndices [a] x = (-1, 0) ∨ interpolationIndices [a] x = (0, 1) := by
    unfold interpolationIndices
    by_cases h : a < x
    · left
      have : List.findIdx (fun v => decide (¬ v < x)) [a] = 1 := by
        simp [List.findIdx_cons, not_le.2 h]
      simp only [this]; rfl
    · right
      have : List.findIdx (fun v => decide (¬ v < x)) [a] = 0 := by
        simp [List.findIdx_cons, not_lt.1 h]
      simp only [this]; rfl
  constructor
  · unfold bracket
    rcases h1 with h | h <;> rw [h] <;> simp [vgetI, vget]
  · unfold bracket interpolationIndices
    simp [vgetI]

end indices

/-! ### Values -/

/-- Log-log interpolation between `(x0, y0)` and `(x1, y1)` gives the end values at the ends. -/
theorem logLog_left (x0 x1 y0 y1 : ℝ) (h0 : 0 < x0) (h1 : x0 < x1) (hy0 : 0 < y0) :
    logLog x0 x0 x1 y0 y1 = y0 := by
  unfold logLog
  simp only [Trans.log, Trans.exp]
  have hl : Real.log (x1 / x0) ≠ 0 := by
    apply ne_of_gt
    apply Real.log_pos
    rw [lt_div_iff₀ h0]; linarith
  rw [div_self (ne_of_gt h0), Real.log_one]
  field_simp
  rw [zero_mul, add_zero, mul_div_cancel_left₀ _ hl, Real.exp_log hy0]

theorem logLog_right (x0 x1 y0 y1 : ℝ) (h0 : 0 < x0) (h1 : x0 < x1) (hy1 : 0 < y1) :
    logLog x1 x0 x1 y0 y1 = y1 := by
  unfold logLog
  simp only [Trans.log, Trans.exp]
  have hl : Real.log (x1 / x0) ≠ 0 := by
    apply ne_of_gt
    apply Real.log_pos
    rw [lt_div_iff₀ h0]; linarith
  have hx1 : 0 < x1 := lt_trans h0 h1
  rw [div_self (ne_of_gt hx1), Real.log_one]
  field_simp
  rw [zero_mul, zero_add, mul_div_cancel_left₀ _ hl, Real.exp_log hy1]

theorem logLog_between (x x0 x1 y0 y1 : ℝ) (h0 : 0 < x0) (h1 : x0 < x1) (hx0 : x0 ≤ x) (hx1 : x ≤ x1)
    (hy0 : 0 < y0) (hy1 : 0 < y1) :
    min y0 y1 ≤ logLog x x0 x1 y0 y1 ∧ logLog x x0 x1 y0 y1 ≤ max y0 y1 := by
  have hx : 0 < x := lt_of_lt_of_le h0 hx0
  have hX1 : 0 < x1 := lt_trans h0 h1
  have hL : 0 < Real.log (x1 / x0) := by
    apply Real.log_pos
    rw [lt_div_iff₀ h0]; linarith
  set A := Real.log (x1 / x) * (1 / Real.log (x1 / x0)) with hA
  set B := 1 / Real.log (x1 / x0) * Real.log (x / x0) with hB
  have hA0 : 0 ≤ A := by
    apply mul_nonneg
    · apply Real.log_nonneg
      rw [le_div_iff₀ hx]; linarith
    · positivity
  have hB0 : 0 ≤ B := by
    apply mul_nonneg
    · positivity
    · apply Real.log_nonneg
      rw [le_div_iff₀ h0]; linarith
  have hAB : A + B = 1 := by
    rw [hA, hB, Real.log_div (ne_of_gt hX1) (ne_of_gt hx), Real.log_div (ne_of_gt hx) (ne_of_gt h0)]
    rw [Real.log_div (ne_of_gt hX1) (ne_of_gt h0)] at hL ⊢
    field_simp
    ring
  have hval : logLog x x0 x1 y0 y1 = Real.exp (A * Real.log y0 + B * Real.log y1) := rfl
  rw [hval]
  have hm : 0 < min y0 y1 := lt_min hy0 hy1
  have hM : 0 < max y0 y1 := lt_max_of_lt_left hy0
  have l0 : Real.log (min y0 y1) ≤ Real.log y0 := Real.log_le_log hm (min_le_left _ _)
  have l1 : Real.log (min y0 y1) ≤ Real.log y1 := Real.log_le_log hm (min_le_right _ _)
  have u0 : Real.log y0 ≤ Real.log (max y0 y1) := Real.log_le_log hy0 (le_max_left _ _)
  have u1 : Real.log y1 ≤ Real.log (max y0 y1) := Real.log_le_log hy1 (le_max_right _ _)
  have hB1 : B = 1 - A := by linarith
  constructor
  · rw [← Real.log_le_iff_le_exp hm]
    have e1 := mul_le_mul_of_nonneg_left l0 hA0
    have e2 := mul_le_mul_of_nonneg_left l1 hB0
    have : Real.log (min y0 y1) = A * Real.log (min y0 y1) + B * Real.log (min y0 y1) := by
      rw [← add_mul, hAB, one_mul]
    linarith
  · rw [← Real.le_log_iff_exp_le hM]
    have e1 := mul_le_mul_of_nonneg_left u0 hA0
    have e2 := mul_le_mul_of_nonneg_left u1 hB0
    have : Real.log (max y0 y1) = A * Real.log (max y0 y1) + B * Real.log (max y0 y1) := by
      rw [← add_mul, hAB, one_mul]
    linarith

/-- A table of positive, strictly increasing energies, no two of them closer than the resolution 5e-10 of the
code. -/
def GoodTable (E : List ℝ) : Prop :=
  2 ≤ E.length ∧ (∀ x ∈ E, 0 < x) ∧ E.Pairwise (fun a b => a + 5 / 10000000000 ≤ b)

theorem good_lt {E : List ℝ} (h : GoodTable E) {i j : Nat} (hi : i < E.length) (hj : j < E.length)
    (hij : i < j) : E[i] + 5 / 10000000000 ≤ E[j] :=
  List.pairwise_iff_getElem.1 h.2.2 i j hi hj hij

theorem good_findIdx {E : List ℝ} {x : ℝ} {k : Nat} (hk : k < E.length)
    (hx : x ≤ E[k]) (hprev : ∀ i (hi : i < E.length), i < k → E[i] < x) :
    E.findIdx (fun v => decide (¬ v < x)) = k := by
  obtain ⟨h1, h2, h3⟩ := findIdx_spec E x
  set p := E.findIdx (fun v => decide (¬ v < x)) with hp
  rcases Nat.lt_trichotomy p k with hlt | heq | hgt
  · have a := h2 (by omega)
    have b := hprev p (by omega) hlt
    exact absurd (lt_of_le_of_lt a b) (lt_irrefl _)
  · exact heq
  · have a := h1 k hk hgt
    exact absurd (lt_of_lt_of_le a hx) (lt_irrefl _)

theorem vgetI_nat {α : Type} (v : List α) (i : Nat) (h : i < v.length) : vgetI v (i : Int) = .ok v[i] := by
  unfold vgetI
  rw [if_neg (by omega)]
  simp [vget_lt v i h]

/-- The bracket used for an energy in `(E[k], E[k+1]]`, or at the first energy. -/
theorem good_bracket {E : List ℝ} (h : GoodTable E) {x : ℝ} {k : Nat} (hk : k + 1 < E.length)
    (hx : (E[k] < x ∧ x ≤ E[k + 1]) ∨ (k = 0 ∧ x = E[0])) :
    bracket E x = .ok ((k : Int), (k : Int) + 1, E[k], E[k + 1]) := by
  have hidx : interpolationIndices E x = ((k : Int), (k : Int) + 1) := by
    unfold interpolationIndices
    rcases hx with ⟨hl, hu⟩ | ⟨rfl, rfl⟩
    · have hp : E.findIdx (fun v => decide (¬ v < x)) = k + 1 := by
        apply good_findIdx hk hu
        intro i hi hik
        rcases Nat.lt_or_ge i k with h1 | h1
        · have := good_lt h hi (by omega : k < E.length) h1
          linarith
        · have : i = k := by omega
          subst this; exact hl
      simp only [hp]
      rw [if_neg (by omega), if_pos (by omega)]
      simp
    · have hp : E.findIdx (fun v => decide (¬ v < E[0])) = 0 :=
        good_findIdx (by omega) (le_refl _) (by intro i hi h0; omega)
      simp only [hp]
      rw [if_neg (by omega), if_neg (by omega)]
      rfl
  unfold bracket
  simp only [hidx]
  have e1 : ((k : Int) + 1) = ((k + 1 : Nat) : Int) := by push_cast; ring
  rw [vgetI_nat E k (by omega), e1, vgetI_nat E (k + 1) hk]
  simp only [Outcome.ok_bind]
  split
  · rename_i hc
    have hlen : k + 2 < E.length := by
      have := hc.2
      omega
    have e2 : (((k + 1 : Nat) : Int) + 1) = ((k + 2 : Nat) : Int) := by push_cast; ring
    rw [e2, vgetI_nat E (k + 2) hlen]
    simp only [Outcome.ok_bind]
    have := good_lt h hk hlen (by omega)
    rw [if_neg (by intro hh; rw [hh] at this; linarith)]
    rfl
  · rfl

theorem good_process {E : List ℝ} (h : GoodTable E) {x : ℝ} {k : Nat} (hk : k + 1 < E.length)
    {table : List ℝ} (hlen : table.length = E.length) (hpos : ∀ y ∈ table, 0 < y) :
    processValue ((k : Int), (k : Int) + 1, E[k], E[k + 1]) x table
      = .ok (logLog x E[k] E[k + 1] table[k] table[k + 1]) := by
  unfold processValue
  simp only
  have hgap := good_lt h (by omega : k < E.length) hk (by omega)
  rw [if_neg (by
    rintro (hh | hh)
    · omega
    · linarith)]
  have e1 : ((k : Int) + 1) = ((k + 1 : Nat) : Int) := by push_cast; ring
  rw [vgetI_nat table k (by omega), e1, vgetI_nat table (k + 1) (by omega)]
  simp only [Outcome.ok_bind, Outcome.pure_eq]
  unfold logLogGuarded
  rw [if_pos ⟨hpos _ (List.getElem_mem _), hpos _ (List.getElem_mem _)⟩]

/-- What an interpolated table must satisfy: it is exact at each tabulated energy and lies between the two
neighbouring values elsewhere. -/
def Interpolates (E table : List ℝ) (f : ℝ → Outcome ℝ) : Prop :=
  (∀ k (hk : k < E.length) (hk' : k < table.length), f E[k] = .ok table[k]) ∧
  (∀ k (hk : k + 1 < E.length) (hk' : k + 1 < table.length) (x : ℝ), E[k] < x → x < E[k + 1] →
    ∃ y, f x = .ok y ∧ min table[k] table[k + 1] ≤ y ∧ y ≤ max table[k] table[k + 1])

/-- **C22** (values) The coherent, Compton and pair coefficients computed by the code interpolate the tabulated
ones, for every table of positive values. -/
theorem C22_process_interpolates {E table : List ℝ} (h : GoodTable E) (hlen : table.length = E.length)
    (hpos : ∀ y ∈ table, 0 < y) :
    Interpolates E table (fun x => do let b ← bracket E x; processValue b x table) := by
  constructor
  · intro k hk hk'
    simp only
    by_cases h0 : k = 0
    · subst h0
      have hk2 : 0 + 1 < E.length := h.1
      rw [good_bracket h hk2 (Or.inr ⟨rfl, rfl⟩)]
      simp only [Outcome.ok_bind]
      rw [good_process h hk2 hlen hpos, logLog_left]
      · exact h.2.1 _ (List.getElem_mem _)
      · have := good_lt h hk hk2 (by omega); linarith
      · exact hpos _ (List.getElem_mem _)
    · obtain ⟨j, rfl⟩ : ∃ j, k = j + 1 := ⟨k - 1, by omega⟩
      have hlt := good_lt h (by omega : j < E.length) hk (by omega)
      rw [good_bracket h hk (Or.inl ⟨by linarith, le_refl _⟩)]
      simp only [Outcome.ok_bind]
      rw [good_process h hk hlen hpos, logLog_right]
      · exact h.2.1 _ (List.getElem_mem _)
      · linarith
      · exact hpos _ (List.getElem_mem _)
  · intro k hk hk' x hl hu
    simp only
    rw [good_bracket h hk (Or.inl ⟨hl, le_of_lt hu⟩)]
    simp only [Outcome.ok_bind]
    rw [good_process h hk hlen hpos]
    refine ⟨_, rfl, ?_⟩
    exact logLog_between x _ _ _ _ (h.2.1 _ (List.getElem_mem _)) (lt_trans hl hu) (le_of_lt hl) (le_of_lt hu)
      (hpos _ (List.getElem_mem _)) (hpos _ (List.getElem_mem _))

/-- **C22** (values, partial coefficients) The partial photoelectric coefficient of a shell or of the remaining
shells interpolates its table, for every table of positive values. -/
theorem C22_partial_coefficients_interpolate (other : Bool) {E V : List ℝ} (h : GoodTable E)
    (hlen : V.length = E.length) (hpos : ∀ y ∈ V, 0 < y) :
    Interpolates E V (partialValue other E V) := by
  have key : ∀ (k : Nat) (hk : k + 1 < E.length) (x : ℝ),
      ((E[k] < x ∧ x ≤ E[k + 1]) ∨ (k = 0 ∧ x = E[0])) →
      partialValue other E V x = .ok (logLog x E[k] E[k + 1] V[k] V[k + 1]) := by
    intro k hk x hx
    unfold partialValue
    rw [good_bracket h hk hx]
    simp only [Outcome.ok_bind]
    have hgap := good_lt h (by omega : k < E.length) hk (by omega)
    rw [if_neg (by
      rintro (hh | hh)
      · omega
      · linarith)]
    have e1 : ((k : Int) + 1) = ((k + 1 : Nat) : Int) := by push_cast; ring
    rw [vgetI_nat V k (by omega), e1, vgetI_nat V (k + 1) (by omega)]
    simp only [Outcome.ok_bind]
    have p0 : (0 : ℝ) < V[k] := hpos _ (List.getElem_mem _)
    have p1 : (0 : ℝ) < V[k + 1] := hpos _ (List.getElem_mem _)
    cases other with
    | true => simp only [if_true, logLogGuarded, p0, p1, and_self, Outcome.pure_eq]
    | false => simp [p0]
  constructor
  · intro k hk hk'
    by_cases h0 : k = 0
    · subst h0
      have hk2 : 0 + 1 < E.length := h.1
      rw [key 0 hk2 _ (Or.inr ⟨rfl, rfl⟩), logLog_left]
      · exact h.2.1 _ (List.getElem_mem _)
      · have := good_lt h hk hk2 (by omega); linarith
      · exact hpos _ (List.getElem_mem _)
    · obtain ⟨j, rfl⟩ : ∃ j, k = j + 1 := ⟨k - 1, by omega⟩
      have hlt := good_lt h (by omega : j < E.length) hk (by omega)
      rw [key j hk _ (Or.inl ⟨by linarith, le_refl _⟩), logLog_right]
      · exact h.2.1 _ (List.getElem_mem _)
      · linarith
      · exact hpos _ (List.getElem_mem _)
  · intro k hk hk' x hl hu
    rw [key k hk x (Or.inl ⟨hl, le_of_lt hu⟩)]
    refine ⟨_, rfl, ?_⟩
    exact logLog_between x _ _ _ _ (h.2.1 _ (List.getElem_mem _)) (lt_trans hl hu) (le_of_lt hl) (le_of_lt hu)
      (hpos _ (List.getElem_mem _)) (hpos _ (List.getElem_mem _))

example : GoodTable [1, 2, 10] := by
  refine ⟨by simp, ?_, ?_⟩
  · intro x hx
    simp only [List.mem_cons, List.not_mem_nil, or_false] at hx
    rcases hx with rfl | rfl | rfl <;> norm_num
  · simp only [List.pairwise_cons, List.mem_cons, List.not_mem_nil, or_false, forall_eq_or_imp, forall_eq,
      List.Pairwise.nil, and_true, false_imp_iff, implies_true]
    norm_num

end Element
end Fisx
