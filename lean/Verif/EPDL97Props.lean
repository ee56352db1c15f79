import Verif.EPDL97
import Verif.ElementInterp
import Verif.ElementProps

/-!
# Properties of EPDL97: C23, C50, C51, C62
-/

set_option linter.unusedSectionVars false

namespace Fisx
namespace EPDL97

variable {K : Type} [Field K] [LinearOrder K] [IsStrictOrderedRing K]

/-! ### C23, the interpolation indices -/

/-- The bisection ends, stays inside the interval it was given and keeps its bounds on the value. -/
theorem bisect_spec (vec : List K) (x : K) (fuel : Nat) : ∀ (iMin iMax last : Nat), iMin ≤ iMax →
    iMax < vec.length → iMax - iMin < fuel →
    ∃ a b l, bisect vec x fuel iMin iMax last = .ok ((a, b), l) ∧ iMin ≤ a ∧ a ≤ b ∧ b ≤ a + 1 ∧ b ≤ iMax ∧
      (iMin < iMax → a < b) ∧ (l = last ∨ l < vec.length) ∧ (a = iMin ∨ ∃ h : a < vec.length, vec[a] < x) ∧
      (b = iMax ∨ ∃ h : b < vec.length, x ≤ vec[b]) := by
  induction fuel with
  | zero => intro _ _ _ _ _ h; omega
  | succ n ih =>
    intro iMin iMax last h1 h2 h3
    unfold bisect
    by_cases hd : iMax - iMin > 1
    · simp only [hd, if_true]
      set step := (if iMax - iMin > 2 then (iMax - iMin) / 2 else iMax - iMin - 1) with hstep
      have hs : 1 ≤ step ∧ step < iMax - iMin := by
        rw [hstep]; split <;> omega
      have hm : iMin + step < vec.length := by omega
      rw [vget_lt _ _ hm]
      simp only [Outcome.ok_bind]
      by_cases hx : x > vec[iMin + step]
      · rw [if_pos hx]
        obtain ⟨a, b, l, e1, e2, e3, e4, e5, e6, e7, e8, e9⟩ :=
          ih (iMin + step) iMax (iMin + step) (by omega) h2 (by omega)
        refine ⟨a, b, l, e1, by omega, e3, e4, e5, fun _ => e6 (by omega), ?_, ?_, e9⟩
        · rcases e7 with rfl | h
          · exact Or.inr hm
          · exact Or.inr h
        · rcases e8 with rfl | h
          · exact Or.inr ⟨hm, hx⟩
          · exact Or.inr h
      · rw [if_neg hx]
        obtain ⟨a, b, l, e1, e2, e3, e4, e5, e6, e7, e8, e9⟩ :=
          ih iMin (iMin + step) (iMin + step) (by omega) hm (by omega)
        refine ⟨a, b, l, e1, e2, e3, e4, by omega, fun _ => e6 (by omega), ?_, e8, ?_⟩
        · rcases e7 with rfl | h
          · exact Or.inr hm
          · exact Or.inr h
        · rcases e9 with rfl | h
          · exact Or.inr ⟨hm, not_lt.1 hx⟩
          · exact Or.inr h
    · simp only [hd, if_false]
      refine ⟨iMin, iMax, last, rfl, le_refl _, h1, by omega, le_refl _, fun h => h, Or.inl rfl, Or.inl rfl,
        Or.inl rfl⟩

/-- **C23** (indices) For every non-empty table, energy and value of the shared static index, the search of the
interpolation interval returns two valid indices, equal or consecutive, that enclose the energy unless it is outside
the table; the static index left behind is valid too. -/
theorem C23_indices (vec : List K) (hne : vec ≠ []) (x : K) (last : Nat) :
    ∃ a b l, interpolationIndices vec x last = .ok ((a, b), l) ∧ l < vec.length ∧
      ∃ (ha : a < vec.length) (hb : b < vec.length), a ≤ b ∧ b ≤ a + 1 ∧
        (vec[a] ≤ x ∨ a = 0) ∧ (x ≤ vec[b] ∨ b + 1 = vec.length) ∧
        (a = b → (a = 0 ∧ x < vec[a]) ∨ (a + 1 = vec.length ∧ vec[a] ≤ x)) := by
  have hlen : 0 < vec.length := List.length_pos_of_ne_nil hne
  obtain ⟨s, hs, hsl⟩ : ∃ s, startIndex vec last = .ok s ∧ s < vec.length := by
    unfold startIndex
    by_cases h : last ≥ vec.length
    · exact ⟨vec.length - 1, by rw [if_pos h, if_neg (by omega)], by omega⟩
    · exact ⟨last, by rw [if_neg h], by omega⟩
  unfold interpolationIndices
  rw [hs]
  simp only [Outcome.ok_bind]
  rw [vget_lt _ _ hsl]
  simp only [Outcome.ok_bind]
  by_cases hx : x < vec[s]
  · rw [if_pos hx]
    obtain ⟨a, b, l, e1, e2, e3, e4, e5, e6, e7, e8, e9⟩ :=
      bisect_spec vec x (vec.length + 1) 0 s s (by omega) hsl (by omega)
    refine ⟨a, b, l, e1, by omega, by omega, by omega, e3, e4, ?_, ?_, ?_⟩
    · rcases e8 with rfl | ⟨h, h'⟩
      · exact Or.inr rfl
      · exact Or.inl h'.le
    · rcases e9 with rfl | ⟨h, h'⟩
      · exact Or.inl hx.le
      · exact Or.inl h'
    · intro hab
      have hs0 : s = 0 := by
        by_contra hc
        have := e6 (by omega)
        omega
      subst hs0
      have : a = 0 := by omega
      subst this
      exact Or.inl ⟨rfl, hx⟩
  · rw [if_neg hx]
    obtain ⟨m, l0, hu, hm1, hm2, hl0, hmx⟩ : ∃ m l0, upperLimit vec x s = .ok (m, l0) ∧ s ≤ m ∧
        m < vec.length ∧ l0 < vec.length ∧ ((∃ h : m < vec.length, x ≤ vec[m] ∧ s < m) ∨ m + 1 = vec.length) := by
      unfold upperLimit
      by_cases hc : vec.length - s > 21
      · rw [if_pos hc, vget_lt _ _ (by omega : s + 20 < vec.length)]
        simp only [Outcome.ok_bind, Outcome.pure_eq]
        by_cases hw : x < vec[s + 20]
        · rw [if_pos hw]
          exact ⟨s + 20, s + 20, rfl, by omega, by omega, by omega, Or.inl ⟨by omega, hw.le, by omega⟩⟩
        · rw [if_neg hw]
          exact ⟨vec.length - 1, s + 20, rfl, by omega, by omega, by omega, Or.inr (by omega)⟩
      · rw [if_neg hc]
        exact ⟨vec.length - 1, s, rfl, by omega, by omega, hsl, Or.inr (by omega)⟩
    rw [hu]
    simp only [Outcome.ok_bind]
    obtain ⟨a, b, l, e1, e2, e3, e4, e5, e6, e7, e8, e9⟩ :=
      bisect_spec vec x (vec.length + 1) s m l0 hm1 hm2 (by omega)
    refine ⟨a, b, l, e1, by omega, by omega, by omega, e3, e4, ?_, ?_, ?_⟩
    · rcases e8 with rfl | ⟨h, h'⟩
      · exact Or.inl (not_lt.1 hx)
      · exact Or.inl h'.le
    · rcases e9 with rfl | ⟨h, h'⟩
      · rcases hmx with ⟨_, hc, _⟩ | hc
        · exact Or.inl hc
        · exact Or.inr hc
      · exact Or.inl h'
    · intro hab
      have hsm : s = m := by
        by_contra hc
        have := e6 (by omega)
        omega
      rcases hmx with ⟨_, _, hc⟩ | hc
      · omega
      · right
        have : a = s := by omega
        subst this
        exact ⟨by omega, not_lt.1 hx⟩

example : interpolationIndices ([1, 2, 3, 5] : List ℚ) (5 / 2) 3 = .ok ((1, 2), 2) := by decide +kernel

/-- **C23** (indices, inside) Between two consecutive tabulated energies the interval found does not depend on the
calls made before. -/
theorem C23_indices_history_independent (vec : List K) (hs : vec.Pairwise (· ≤ ·)) (k : Nat)
    (hk : k + 1 < vec.length) (x : K) (h1 : vec[k] < x) (h2 : x < vec[k + 1]) (last : Nat) :
    ∃ l, interpolationIndices vec x last = .ok ((k, k + 1), l) ∧ l < vec.length := by
  have hne : vec ≠ [] := by intro h; simp [h] at hk
  obtain ⟨a, b, l, e, hl, ha, hb, hab, hab', h3, h4, h5⟩ := C23_indices vec hne x last
  have hmono : ∀ i j (hi : i < vec.length) (hj : j < vec.length), i ≤ j → vec[i] ≤ vec[j] := by
    intro i j hi hj hij
    rcases Nat.lt_or_ge i j with h | h
    · exact List.pairwise_iff_getElem.1 hs i j hi hj h
    · have : i = j := by omega
      subst this; exact le_refl _
  have ha' : a ≤ k := by
    by_contra hc
    rcases h3 with h | h
    · exact absurd (lt_of_lt_of_le h2 (hmono (k + 1) a hk ha (by omega))) (not_lt.2 h)
    · omega
  have hb' : k + 1 ≤ b := by
    by_contra hc
    rcases h4 with h | h
    · exact absurd (lt_of_le_of_lt (hmono b k hb (by omega) (by omega)) h1) (not_lt.2 h)
    · omega
  have : a = k := by omega
  have : b = k + 1 := by omega
  subst a b
  exact ⟨l, e, hl⟩

/-! ### C23, the coefficients -/

section values

variable [Trans K]

/-- The loop over the labels depends on the rows chosen only through the values it reads. -/
theorem labelLoop_congr (b : SMap Str K) (E : List K) (r r' : Rows K) (rows : List (List K)) (x : K) :
    ∀ (labels : List (Str × Int)) (acc : SMap Str K),
    (∀ p ∈ labels, p.1 ∈ plainKeys → plainValue r rows p.2 x = plainValue r' rows p.2 x) →
    (∀ p ∈ labels, p.1 ∉ derivedKeys → p.1 ∉ plainKeys → p.1.length < 3 → ∀ e, b.find? p.1 = some e → e ≤ x → 0 < e →
      excitedValue E r rows p.2 x = excitedValue E r' rows p.2 x) →
    labelLoop b E r rows x labels acc = labelLoop b E r' rows x labels acc := by
  intro labels
  induction labels with
  | nil => intro acc _ _; rfl
  | cons p rest ih =>
    intro acc h1 h2
    obtain ⟨key, idx⟩ := p
    have ih' := fun acc => ih acc (fun p hp => h1 p (List.mem_cons_of_mem _ hp))
      (fun p hp => h2 p (List.mem_cons_of_mem _ hp))
    unfold labelLoop
    split
    · exact ih' acc
    · rename_i hnd
      split
      · rename_i hk
        rw [h1 (key, idx) List.mem_cons_self hk]
        congr 1
        funext v
        exact ih' _
      · rename_i hk
        split
        · rename_i hlen
          have : shellValue b E r rows key idx x = shellValue b E r' rows key idx x := by
            unfold shellValue
            cases hb : b.find? key with
            | none => rfl
            | some e =>
              simp only
              split
              · rename_i hc
                exact h2 (key, idx) List.mem_cons_self hnd hk hlen e hb hc.1 hc.2
              · rfl
          rw [this]
          congr 1
          funext v
          exact ih' _
        · exact ih' acc

end values

/-- A table of energies as evaluated files have them: positive and in ascending order, where an energy may appear
twice (at an absorption edge) and different energies are more than 1.E-5 keV apart. -/
structure GridTable (E : List ℝ) : Prop where
  len : 2 ≤ E.length
  pos : ∀ x ∈ E, 0 < x
  sorted : E.Pairwise (· ≤ ·)
  gap : ∀ i (h : i + 1 < E.length), E[i] = E[i + 1] ∨ E[i] + 1 / 100000 < E[i + 1]
  twice : ∀ i (h : i + 2 < E.length), E[i] < E[i + 2]

/-- A column of partial cross sections: not negative, positive from some energy on, and at a repeated energy it
either starts or does not change. -/
structure GridColumn (E : List ℝ) (rows : List (List ℝ)) (idx : Int) (c : Nat → ℝ) : Prop where
  read : ∀ i, i < E.length → cell rows i idx = .ok (c i)
  nonneg : ∀ i, i < E.length → 0 ≤ c i
  support : ∀ i, i + 1 < E.length → 0 < c i → 0 < c (i + 1)
  edge : ∀ i (h : i + 1 < E.length), E[i] = E[i + 1] → c i = 0 ∨ c i = c (i + 1)

theorem GridTable.mono {E : List ℝ} (h : GridTable E) {i j : Nat} (hi : i < E.length) (hj : j < E.length)
    (hij : i ≤ j) : E[i] ≤ E[j] := by
  rcases Nat.lt_or_ge i j with h' | h'
  · exact List.pairwise_iff_getElem.1 h.sorted i j hi hj h'
  · have : i = j := by omega
    subst this; exact le_refl _

theorem cell_lt {rows : List (List K)} {i : Nat} {idx : Int} {y : K} (h : cell rows i idx = .ok y) :
    ∃ h' : i < rows.length, vgetI rows[i] idx = .ok y := by
  unfold cell at h
  obtain ⟨r, h1, h2⟩ := Outcome.bind_eq_ok.1 h
  by_cases hlt : i < rows.length
  · rw [vget_lt _ _ hlt] at h1
    injection h1 with h1
    subst h1
    exact ⟨hlt, h2⟩
  · rw [vget_ge _ _ (not_lt.1 hlt)] at h1
    exact absurd h1 (by simp)

/-- A row without data is skipped by the search of the first row with data. -/
theorem firstPositive_step {rows : List (List K)} {i : Nat} {idx : Int} {y : K} (h : cell rows i idx = .ok y) :
    firstPositive (rows.drop i) idx i =
      if y ≤ 0 then firstPositive (rows.drop (i + 1)) idx (i + 1) else .ok i := by
  obtain ⟨hlt, h2⟩ := cell_lt h
  rw [List.drop_eq_getElem_cons hlt]
  conv_lhs => unfold firstPositive
  rw [h2]
  simp

theorem extrapolate_step {E : List ℝ} {rows : List (List ℝ)} {i : Nat} {idx : Int} {y x : ℝ}
    (h : cell rows i idx = .ok y) (hy : y ≤ 0) :
    extrapolate E rows idx i x = extrapolate E rows idx (i + 1) x := by
  unfold extrapolate
  rw [firstPositive_step h, if_pos hy]

/-- The rows used for an energy. -/
noncomputable def rowsFor (E : List ℝ) (x : ℝ) (last : Nat) : Outcome (Rows ℝ × Nat) := do
  let (i, last) ← interpolationIndices E x last
  let r ← adjustRows E x i
  return (r, last)

/-- Between two tabulated energies the rows are those of the interval. -/
theorem rowsFor_between {E : List ℝ} (h : GridTable E) {k : Nat} (hk : k + 1 < E.length) {x : ℝ}
    (h1 : E[k] < x) (h2 : x < E[k + 1]) (last : Nat) :
    ∃ l, rowsFor E x last = .ok ({ i1 := k, i2 := k + 1, x0 := E[k], x1 := E[k + 1] }, l) := by
  obtain ⟨l, e, _⟩ := C23_indices_history_independent E h.sorted k hk x h1 h2 last
  refine ⟨l, ?_⟩
  unfold rowsFor adjustRows
  rw [e]
  simp only [Outcome.ok_bind, Outcome.pure_eq]
  rw [vget_lt _ _ (by omega : k < E.length), vget_lt _ _ hk]
  simp only [Outcome.ok_bind]
  rw [if_neg (by rintro ⟨hc, _⟩; linarith)]
  simp

/-- At a tabulated energy, the rows are those of one of the neighbouring intervals. -/
theorem rowsFor_node {E : List ℝ} (h : GridTable E) {k : Nat} (hk : k + 1 < E.length) (hlt : E[k] < E[k + 1])
    (last : Nat) :
    ∃ r l, rowsFor E E[k] last = .ok (r, l) ∧
      (r = { i1 := k, i2 := k + 1, x0 := E[k], x1 := E[k + 1] } ∨
        ∃ j, ∃ hj : j + 1 = k, r = { i1 := j, i2 := k, x0 := E[j], x1 := E[k] }) := by
  have hne : E ≠ [] := by intro hc; simp [hc] at hk
  obtain ⟨a, b, l, e, hl, ha, hb, hab, hab', h3, h4, h5⟩ := C23_indices E hne E[k] last
  have ha' : a ≤ k := by
    by_contra hc
    rcases h3 with h3 | h3
    · have := h.mono hk ha (by omega); linarith
    · omega
  have hne2 : a ≠ b := by
    intro hc
    rcases h5 hc with ⟨h0, h0'⟩ | ⟨h0, _⟩
    · subst h0
      have := h.mono ha (by omega : k < E.length) (by omega); linarith
    · omega
  have hb1 : b = a + 1 := by omega
  subst hb1
  have hb2 : E[k] ≤ E[a + 1] := by
    rcases h4 with h4 | h4
    · exact h4
    · exact h.mono (by omega) hb (by omega)
  unfold rowsFor adjustRows
  rw [e]
  simp only [Outcome.ok_bind, Outcome.pure_eq]
  rw [vget_lt _ _ ha, vget_lt _ _ hb]
  simp only [Outcome.ok_bind]
  by_cases hak : a = k
  · subst hak
    rw [if_neg (by rintro ⟨hc, _⟩; linarith)]
    exact ⟨_, _, rfl, Or.inl rfl⟩
  by_cases hak1 : a + 1 = k
  · subst hak1
    rw [if_pos ⟨rfl, hk⟩, vget_lt _ _ hk]
    simp only [Outcome.ok_bind]
    rw [if_neg (by intro hc; linarith)]
    exact ⟨_, _, rfl, Or.inr ⟨a, rfl, rfl⟩⟩
  · -- a repeated energy, seen from below
    have hak2 : a + 2 = k := by
      by_contra hc
      have h6 := h.twice (a + 1) (by omega)
      have h7 := h.mono (by omega : a + 1 + 2 < E.length) (by omega : k < E.length) (by omega)
      linarith
    subst hak2
    have heq : E[a + 2] = E[a + 1] := le_antisymm hb2 (h.mono (by omega) (by omega) (by omega))
    rw [if_pos ⟨heq, by omega⟩, vget_lt _ _ (by omega : a + 1 + 1 < E.length)]
    simp only [Outcome.ok_bind]
    rw [if_pos heq]
    exact ⟨_, _, rfl, Or.inr ⟨a + 1, rfl, rfl⟩⟩

theorem not_same {r : Rows ℝ} (h1 : r.i1 ≠ r.i2) (h2 : r.x0 + 1 / 100000 < r.x1) : ¬ r.same := by
  rintro (h | h)
  · exact h1 h
  · linarith

/-- The value of a process at a tabulated energy is the tabulated one, whichever the rows. -/
theorem plain_node {E : List ℝ} (h : GridTable E) {rows : List (List ℝ)} {idx : Int} {c : Nat → ℝ}
    (hc : GridColumn E rows idx c) {k : Nat} (hk : k + 1 < E.length) (hlt : E[k] < E[k + 1]) {r : Rows ℝ}
    (hr : r = { i1 := k, i2 := k + 1, x0 := E[k], x1 := E[k + 1] } ∨
        ∃ j, ∃ hj : j + 1 = k, r = { i1 := j, i2 := k, x0 := E[j], x1 := E[k] }) :
    plainValue r rows idx E[k] = .ok (c k) := by
  have hpos : ∀ i (hi : i < E.length), 0 < E[i] := fun i hi => h.pos _ (List.getElem_mem _)
  rcases hr with rfl | ⟨j, rfl, rfl⟩
  · have hg : E[k] + 1 / 100000 < E[k + 1] := by
      rcases h.gap k hk with hh | hh
      · linarith
      · exact hh
    unfold plainValue
    rw [if_neg (not_same (by simp) hg)]
    simp only
    rw [hc.read k (by omega), hc.read (k + 1) hk]
    simp only [Outcome.ok_bind, Outcome.pure_eq]
    congr 1
    unfold Element.logLogGuarded
    rcases lt_or_eq_of_le (hc.nonneg k (by omega)) with hp | hp
    · rw [if_pos ⟨hp, hc.support k hk hp⟩]
      exact Element.logLog_left _ _ _ _ (hpos k (by omega)) hlt hp
    · rw [if_neg (by rintro ⟨hh, _⟩; linarith), if_neg (by rintro ⟨_, hh⟩; linarith), hp]
  · have hj : j + 1 < E.length := by omega
    rcases h.gap j hj with hg | hg
    · unfold plainValue
      rw [if_pos (show Rows.same _ from Or.inr (by simp only; linarith))]
      exact hc.read _ hj
    · unfold plainValue
      rw [if_neg (not_same (by simp) hg)]
      simp only
      rw [hc.read j (by omega), hc.read (j + 1) hj]
      simp only [Outcome.ok_bind, Outcome.pure_eq]
      congr 1
      unfold Element.logLogGuarded
      have hlt' : E[j] < E[j + 1] := by linarith
      rcases lt_or_eq_of_le (hc.nonneg (j + 1) hj) with hp | hp
      · by_cases h0 : 0 < c j
        · rw [if_pos ⟨h0, hp⟩]
          exact Element.logLog_right _ _ _ _ (hpos j (by omega)) hlt' hp
        · rw [if_neg (by rintro ⟨hh, _⟩; exact h0 hh), if_pos ⟨hp, by linarith⟩]
          have hl : Real.log (E[j + 1] / E[j]) ≠ 0 := by
            apply ne_of_gt
            apply Real.log_pos
            rw [lt_div_iff₀ (hpos j (by omega))]
            linarith
          show Real.exp (1 / Real.log (E[j + 1] / E[j]) * Real.log (E[j + 1] / E[j]) * Real.log (c (j + 1))) = _
          rw [one_div, inv_mul_cancel₀ hl, one_mul, Real.exp_log hp]
      · rw [if_neg (by rintro ⟨_, hh⟩; linarith), if_neg (by rintro ⟨hh, _⟩; linarith), hp]

/-- The value of an excited shell at a tabulated energy is the tabulated one, or the extrapolation of the first two
positive ones when it is null, whichever the rows. -/
theorem excited_node {E : List ℝ} (h : GridTable E) {rows : List (List ℝ)} {idx : Int} {c : Nat → ℝ}
    (hc : GridColumn E rows idx c) {k : Nat} (hk : k + 1 < E.length) (hlt : E[k] < E[k + 1]) {r : Rows ℝ}
    (hr : r = { i1 := k, i2 := k + 1, x0 := E[k], x1 := E[k + 1] } ∨
        ∃ j, ∃ hj : j + 1 = k, r = { i1 := j, i2 := k, x0 := E[j], x1 := E[k] }) :
    excitedValue E r rows idx E[k] = if 0 < c k then .ok (c k) else extrapolate E rows idx k E[k] := by
  have hpos : ∀ i (hi : i < E.length), 0 < E[i] := fun i hi => h.pos _ (List.getElem_mem _)
  have hext : 0 < c k → extrapolate E rows idx k E[k] = .ok (c k) := by
    intro hp
    unfold extrapolate
    rw [firstPositive_step (hc.read k (by omega)), if_neg (not_le.2 hp)]
    simp only [Outcome.ok_bind]
    rw [hc.read k (by omega), hc.read (k + 1) hk, vget_lt _ _ (by omega : k < E.length), vget_lt _ _ hk]
    simp only [Outcome.ok_bind, Outcome.pure_eq]
    rw [Element.logLog_left _ _ _ _ (hpos k (by omega)) hlt hp]
  rcases hr with rfl | ⟨j, rfl, rfl⟩
  · have hg : E[k] + 1 / 100000 < E[k + 1] := by
      rcases h.gap k hk with hh | hh
      · linarith
      · exact hh
    unfold excitedValue
    rw [if_neg (not_same (by simp) hg)]
    simp only
    rw [hc.read k (by omega), hc.read (k + 1) hk]
    simp only [Outcome.ok_bind, Outcome.pure_eq]
    by_cases hp : 0 < c k
    · rw [if_pos hp, if_pos hp, if_pos (hc.support k hk hp), Element.logLog_left _ _ _ _ (hpos k (by omega)) hlt hp]
    · rw [if_neg hp, if_neg hp]
  · have hj : j + 1 < E.length := by omega
    rcases h.gap j hj with hg | hg
    · unfold excitedValue
      rw [if_pos (show Rows.same _ from Or.inr (by simp only; linarith))]
      simp only
      rw [hc.read j (by omega), hc.read (j + 1) hj]
      simp only [Outcome.ok_bind, Outcome.pure_eq]
      by_cases h0 : 0 < c j
      · rw [if_pos h0, if_pos (hc.support j hj h0)]
        rcases hc.edge j hj hg with he | he
        · linarith
        · rw [he]
      · rw [if_neg h0]
        by_cases hp : 0 < c (j + 1)
        · rw [if_pos hp, if_pos ⟨by linarith, hp⟩]
        · rw [if_neg hp, if_neg (by rintro ⟨_, hh⟩; exact hp hh)]
          exact extrapolate_step (hc.read j (by omega)) (not_lt.1 h0)
    · unfold excitedValue
      rw [if_neg (not_same (by simp) hg)]
      simp only
      rw [hc.read j (by omega), hc.read (j + 1) hj]
      simp only [Outcome.ok_bind, Outcome.pure_eq]
      have hlt' : E[j] < E[j + 1] := by linarith
      by_cases h0 : 0 < c j
      · have hp := hc.support j hj h0
        rw [if_pos h0, if_pos hp, if_pos hp, Element.logLog_right _ _ _ _ (hpos j (by omega)) hlt' hp]
      · rw [if_neg h0, extrapolate_step (hc.read j (by omega)) (not_lt.1 h0)]
        by_cases hp : 0 < c (j + 1)
        · rw [if_pos hp, hext hp]
        · rw [if_neg hp]

/-- Forget the static index. -/
def value {α : Type} (o : Outcome (α × Nat)) : Outcome α := do
  let r ← o
  return r.1

theorem exists_interval {E : List ℝ} {x : ℝ} (hlo : ∃ h0 : 0 < E.length, E[0] ≤ x)
    (hhi : ∃ h1 : E.length - 1 < E.length, x < E[E.length - 1]) :
    ∃ k, ∃ hk : k + 1 < E.length, E[k] ≤ x ∧ x < E[k + 1] := by
  obtain ⟨h0, hlo⟩ := hlo
  obtain ⟨h1, hhi⟩ := hhi
  have : ∀ n, (hn : n < E.length) → x < E[n] → ∃ k, ∃ hk : k + 1 < E.length, E[k] ≤ x ∧ x < E[k + 1] := by
    intro n
    induction n with
    | zero => intro hn hx; linarith
    | succ n ih =>
      intro hn hx
      by_cases hc : x < E[n]
      · exact ih (by omega) hc
      · exact ⟨n, hn, not_lt.1 hc, hx⟩
  exact this _ h1 hhi

/-- **C23** (history) For a table of the kind found in evaluated data (`GridTable`, and `GridColumn` for every column
used) and any energy from the first tabulated one up to, but not including, the last one, the coefficients computed
do not depend on the calls made before (the static index), at the tabulated energies and at the absorption edges
included. -/
theorem C23_history_independent_partial (b : SMap Str ℝ) (E : List ℝ) (rows : List (List ℝ)) (labels : SMap Str Int)
    (h : GridTable E) (hcol : ∀ p ∈ (labels : List (Str × Int)), p.1 ∉ derivedKeys → ∃ c, GridColumn E rows p.2 c)
    (x : ℝ) (hlo : ∃ h0 : 0 < E.length, E[0] ≤ x) (hhi : ∃ h1 : E.length - 1 < E.length, x < E[E.length - 1])
    (last last' : Nat) :
    value (fromTable b E rows labels x last) = value (fromTable b E rows labels x last') := by
  have hft : ∀ n, fromTable b E rows labels x n = (do
      let (r, l) ← rowsFor E x n
      let m ← labelLoop b E r rows x labels [("energy".toList, x)]
      return (finish m, l)) := by
    intro n
    unfold fromTable rowsFor
    cases interpolationIndices E x n with
    | ok v => cases hv : adjustRows E x v.1 <;> simp [hv]
    | throw _ => rfl
    | ub _ => rfl
    | diverge => rfl
  obtain ⟨k, hk, hk1, hk2⟩ := exists_interval hlo hhi
  rw [hft, hft]
  rcases lt_or_eq_of_le hk1 with hlt | heq
  · obtain ⟨l, e⟩ := rowsFor_between h hk hlt hk2 last
    obtain ⟨l', e'⟩ := rowsFor_between h hk hlt hk2 last'
    rw [e, e']
    simp only [Outcome.ok_bind, Outcome.pure_eq, value]
    cases labelLoop b E _ rows x labels [("energy".toList, x)] <;> rfl
  · subst heq
    obtain ⟨r, l, e, hr⟩ := rowsFor_node h hk hk2 last
    obtain ⟨r', l', e', hr'⟩ := rowsFor_node h hk hk2 last'
    rw [e, e']
    have hnot : ∀ s ∈ plainKeys, s ∉ derivedKeys := by decide +kernel
    simp only [Outcome.ok_bind, Outcome.pure_eq, value]
    rw [labelLoop_congr b E r r' rows E[k] labels [("energy".toList, E[k])]
      (by
        intro p hp hpk
        obtain ⟨c, hc⟩ := hcol p hp (hnot _ hpk)
        rw [plain_node h hc hk hk2 hr, plain_node h hc hk hk2 hr'])
      (by
        intro p hp hpd _ _ _ _ _ _
        obtain ⟨c, hc⟩ := hcol p hp hpd
        rw [excited_node h hc hk hk2 hr, excited_node h hc hk hk2 hr'])]
    cases labelLoop b E r' rows E[k] labels [("energy".toList, E[k])] <;> rfl

/-- **C23** (history, through the API) The same for `getMassAttenuationCoefficients(z, energy)` of an object. -/
theorem C23_api_history_independent_partial (e : EPDL97 ℝ) (z : Int) (x : ℝ)
    (htab : ∀ E, vgetI e.muEnergy (elementIndex e z) = .ok E → GridTable E ∧
      (∃ h0 : 0 < E.length, E[0] ≤ x) ∧ (∃ h1 : E.length - 1 < E.length, x < E[E.length - 1]) ∧
      ∀ rows, vgetI e.values (elementIndex e z) = .ok rows →
        ∀ p ∈ (e.labelIndex : List (Str × Int)), p.1 ∉ derivedKeys → ∃ c, GridColumn E rows p.2 c)
    (last last' : Nat) : value (getMu e z x last) = value (getMu e z x last') := by
  unfold getMu
  split
  · rfl
  split
  · rfl
  cases hE : vgetI e.muEnergy (elementIndex e z) with
  | ok E =>
    obtain ⟨h1, h2, h3, h4⟩ := htab E hE
    cases hr : vgetI e.values (elementIndex e z) with
    | ok rows =>
      cases hb : vgetI e.binding (elementIndex e z) with
      | ok b =>
        simp only [Outcome.ok_bind]
        exact C23_history_independent_partial b E rows e.labelIndex h1 (h4 rows hr) x h2 h3 last last'
      | throw _ => rfl
      | ub _ => rfl
      | diverge => rfl
    | throw _ => rfl
    | ub _ => rfl
    | diverge => rfl
  | throw _ => rfl
  | ub _ => rfl
  | diverge => rfl

/-! ### C23, no reads outside the table -/

section defined

variable [Trans K]

/-- A column that can be read at each energy of the table. -/
def Readable (E : List K) (rows : List (List K)) (idx : Int) : Prop :=
  ∀ i, i < E.length → ∃ y, cell rows i idx = .ok y

/-- The two highest energies have data. -/
def HasData (E : List K) (rows : List (List K)) (idx : Int) : Prop :=
  ∀ i, i < E.length → E.length ≤ i + 2 → ∃ y, cell rows i idx = .ok y ∧ 0 < y

theorem adjustRows_defined (E : List K) (x : K) (a b : Nat) (ha : a < E.length) (hb : b < E.length) :
    ∃ r, adjustRows E x (a, b) = .ok r ∧ r.i1 < E.length ∧ r.i2 < E.length := by
  unfold adjustRows
  simp only
  rw [vget_lt _ _ ha, vget_lt _ _ hb]
  simp only [Outcome.ok_bind]
  split
  · rename_i hc
    rw [vget_lt _ _ hc.2]
    simp only [Outcome.ok_bind]
    split
    · exact ⟨_, rfl, hb, hc.2⟩
    · exact ⟨_, rfl, ha, hb⟩
  · exact ⟨_, rfl, ha, hb⟩

theorem firstPositive_defined {E : List K} {rows : List (List K)} {idx : Int} (hr : Readable E rows idx)
    (hd : HasData E rows idx) : ∀ (n i : Nat), i + 2 ≤ E.length → E.length = i + 2 + n →
    ∃ w, firstPositive (rows.drop i) idx i = .ok w ∧ i ≤ w ∧ w + 2 ≤ E.length := by
  intro n
  induction n with
  | zero =>
    intro i hi hn
    obtain ⟨y, hy, hp⟩ := hd i (by omega) (by omega)
    rw [firstPositive_step hy, if_neg (not_le.2 hp)]
    exact ⟨i, rfl, le_refl _, hi⟩
  | succ n ih =>
    intro i hi hn
    obtain ⟨y, hy⟩ := hr i (by omega)
    rw [firstPositive_step hy]
    split
    · obtain ⟨w, h1, h2, h3⟩ := ih (i + 1) (by omega) (by omega)
      exact ⟨w, h1, by omega, h3⟩
    · exact ⟨i, rfl, le_refl _, hi⟩

theorem extrapolate_defined {E : List K} {rows : List (List K)} {idx : Int} (hr : Readable E rows idx)
    (hd : HasData E rows idx) {i : Nat} (hi : i + 2 ≤ E.length) (x : K) :
    ∃ y, extrapolate E rows idx i x = .ok y := by
  obtain ⟨w, h1, _, h3⟩ := firstPositive_defined hr hd (E.length - i - 2) i hi (by omega)
  obtain ⟨y0, e0⟩ := hr w (by omega)
  obtain ⟨y1, e1⟩ := hr (w + 1) (by omega)
  unfold extrapolate
  rw [h1]
  simp only [Outcome.ok_bind]
  rw [e0, e1, vget_lt _ _ (by omega : w < E.length), vget_lt _ _ (by omega : w + 1 < E.length)]
  simp only [Outcome.ok_bind, Outcome.pure_eq]
  exact ⟨_, rfl⟩

theorem plainValue_defined {E : List K} {rows : List (List K)} {idx : Int} (hr : Readable E rows idx) {r : Rows K}
    (h1 : r.i1 < E.length) (h2 : r.i2 < E.length) (x : K) : ∃ y, plainValue r rows idx x = .ok y := by
  obtain ⟨y0, e0⟩ := hr _ h1
  obtain ⟨y1, e1⟩ := hr _ h2
  unfold plainValue
  split
  · exact ⟨_, e1⟩
  · rw [e0, e1]
    exact ⟨_, rfl⟩

theorem excitedValue_defined {E : List K} {rows : List (List K)} {idx : Int} (hr : Readable E rows idx)
    (hd : HasData E rows idx) {r : Rows K} (h1 : r.i1 < E.length) (h2 : r.i2 < E.length) (x : K) :
    ∃ y, excitedValue E r rows idx x = .ok y := by
  obtain ⟨y0, e0⟩ := hr _ h1
  obtain ⟨y1, e1⟩ := hr _ h2
  have hx : ¬ y0 > 0 → ∃ y, extrapolate E rows idx r.i1 x = .ok y := by
    intro hy
    apply extrapolate_defined hr hd
    by_contra hc
    obtain ⟨y, hy', hp⟩ := hd r.i1 h1 (by omega)
    rw [e0] at hy'
    injection hy' with hy'
    subst hy'
    exact hy hp
  unfold excitedValue
  rw [e0, e1]
  simp only [Outcome.ok_bind, Outcome.pure_eq]
  split
  · split
    · exact ⟨_, rfl⟩
    · split
      · exact ⟨_, rfl⟩
      · exact hx (by assumption)
  · split
    · split
      · exact ⟨_, rfl⟩
      · exact ⟨_, rfl⟩
    · exact hx (by assumption)

/-- **C23** (bounds) For every non-empty table whose columns can be read at each energy, and whose shells with a
positive binding energy have data at the two highest energies, the coefficients are computed for every energy and
whatever the calls before: no read outside the table, no exception, no endless loop. -/
theorem C23_defined_partial (b : SMap Str K) (E : List K) (rows : List (List K)) (labels : SMap Str Int)
    (hne : E ≠ [])
    (hread : ∀ p ∈ (labels : List (Str × Int)), p.1 ∉ derivedKeys → Readable E rows p.2)
    (hshell : ∀ p ∈ (labels : List (Str × Int)), p.1 ∉ derivedKeys → p.1 ∉ plainKeys → p.1.length < 3 →
      ∃ e, b.find? p.1 = some e ∧ (0 < e → HasData E rows p.2))
    (x : K) (last : Nat) : ∃ m l, fromTable b E rows labels x last = .ok (m, l) ∧ l < E.length := by
  obtain ⟨a, c, l, e, hl, ha, hb, _⟩ := C23_indices E hne x last
  obtain ⟨r, hr, h1, h2⟩ := adjustRows_defined E x a c ha hb
  have hloop : ∀ (ls : List (Str × Int)) (acc : SMap Str K),
      (∀ p ∈ ls, p ∈ (labels : List (Str × Int))) → ∃ m, labelLoop b E r rows x ls acc = .ok m := by
    intro ls
    induction ls with
    | nil => intro acc _; exact ⟨acc, rfl⟩
    | cons p rest ih =>
      intro acc hsub
      obtain ⟨key, idx⟩ := p
      have ih' := fun acc => ih acc (fun p hp => hsub p (List.mem_cons_of_mem _ hp))
      have hmem := hsub (key, idx) List.mem_cons_self
      unfold labelLoop
      split
      · exact ih' acc
      · rename_i hnd
        split
        · obtain ⟨y, hy⟩ := plainValue_defined (hread _ hmem hnd) h1 h2 x
          rw [hy]
          exact ih' _
        · rename_i hnp
          split
          · rename_i hlen
            obtain ⟨eb, hb1, hb2⟩ := hshell _ hmem hnd hnp hlen
            have : ∃ y, shellValue b E r rows key idx x = .ok y := by
              unfold shellValue
              rw [hb1]
              simp only
              split
              · rename_i hc
                exact excitedValue_defined (hread _ hmem hnd) (hb2 hc.2) h1 h2 x
              · exact ⟨0, rfl⟩
            obtain ⟨y, hy⟩ := this
            rw [hy]
            exact ih' _
          · exact ih' acc
  obtain ⟨m, hm⟩ := hloop labels [("energy".toList, x)] (fun _ h => h)
  refine ⟨finish m, l, ?_, hl⟩
  unfold fromTable
  rw [e]
  simp only [Outcome.ok_bind, Outcome.pure_eq]
  rw [hr]
  simp only [Outcome.ok_bind]
  rw [hm]
  simp

end defined

/-! ### C23, examples and counterexamples -/

section examples

attribute [local instance] Element.exampleTrans

/-- A small table: energy, coherent, K; the K edge is at the repeated energy 2. -/
def exampleRows : List (List ℚ) :=
  [[1, 9, 0], [2, 7, 0], [2, 7, 40], [3, 5, 30], [4, 4, 20]]

def exampleLabels : SMap Str Int := [("K".toList, 2), ("coherent".toList, 1), ("energy".toList, 0)]

def exampleEnergies : List ℚ := [1, 2, 2, 3, 4]

/-- The hypotheses of `C23_defined_partial` are met. -/
example : ∃ m l, fromTable [("K".toList, (2 : ℚ))] exampleEnergies exampleRows exampleLabels (5 / 2) 4 = .ok (m, l)
    ∧ l < 5 := by
  apply C23_defined_partial
  · decide +kernel
  · intro p hp _ i hi
    have hi : i < 5 := hi
    simp only [exampleLabels, List.mem_cons, List.not_mem_nil, or_false] at hp
    rcases hp with rfl | rfl | rfl <;> interval_cases i <;> exact ⟨_, rfl⟩
  · intro p hp h1 h2 h3
    simp only [exampleLabels, List.mem_cons, List.not_mem_nil, or_false] at hp
    rcases hp with rfl | rfl | rfl
    · refine ⟨2, by decide +kernel, ?_⟩
      intro _ i hi hi'
      have hi : i < 5 := hi
      have hi' : 5 ≤ i + 2 := hi'
      obtain h : i = 3 ∨ i = 4 := by omega
      rcases h with rfl | rfl
      · exact ⟨30, rfl, by norm_num⟩
      · exact ⟨20, rfl, by norm_num⟩
    · exact absurd (by decide +kernel) h2
    · exact absurd (by decide +kernel) h1

/-- **C23** violated: a shell with a binding energy but without data makes the extrapolation read outside the
table. -/
theorem C23_no_data_violated :
    (fromTable [("K".toList, (1 : ℚ))] [1, 2] [[1, 9, 0], [2, 7, 0]] exampleLabels (3 / 2) 0).isUB = true := by
  decide +kernel

end examples

theorem at0_touch (ks : List Str) (k : Str) : ∀ m : SMap Str K, Element.at0 (touch m ks) k = Element.at0 m k := by
  induction ks with
  | nil => intro m; rfl
  | cons a rest ih =>
    intro m
    unfold touch
    rw [List.foldl_cons]
    refine (ih _).trans ?_
    split
    · rfl
    · rename_i h
      unfold Element.at0
      rw [SMap.find?_insert]
      by_cases hk : a = k
      · subst hk
        unfold SMap.mem at h
        have : m.find? a = none := by simpa using h
        simp [this]
      · rw [if_neg hk]

theorem at0_insert (m : SMap Str K) (k k' : Str) (v : K) :
    Element.at0 (m.insert k v) k' = if k = k' then v else Element.at0 m k' := by
  unfold Element.at0
  rw [SMap.find?_insert]
  split <;> rfl

/-- The keys added at the end do not change the others. -/
theorem at0_finish (m : SMap Str K) (k : Str)
    (hk : k ∉ ["pair".toList, "photoelectric".toList, "total".toList]) :
    Element.at0 (finish m) k = Element.at0 m k := by
  simp only [List.mem_cons, List.not_mem_nil, or_false, not_or] at hk
  unfold finish
  simp only [at0_insert, at0_touch]
  rw [if_neg (fun h => hk.2.2 h.symm), if_neg (fun h => hk.2.1 h.symm), if_neg (fun h => hk.1 h.symm)]

theorem logLog_example : Element.logLog (1/2 : ℝ) 1 2 9 7 = 81/7 := by
  have h2 : Real.log 2 ≠ 0 := by
    have := Real.log_pos (by norm_num : (1:ℝ) < 2); exact ne_of_gt this
  show Real.exp (Real.log (2 / (1/2)) * (1 / Real.log (2/1)) * Real.log 9 + 1 / Real.log (2/1) * Real.log (1/2/1) * Real.log 7) = _
  have e1 : Real.log (2 / (1/2)) = 2 * Real.log 2 := by
    rw [show (2 / (1/2) : ℝ) = 2 ^ 2 by norm_num, Real.log_pow]; norm_num
  have e2 : Real.log (1/2/1) = - Real.log 2 := by
    rw [div_one, one_div, Real.log_inv]
  rw [e1, e2, div_one]
  have : 2 * Real.log 2 * (1 / Real.log 2) * Real.log 9 + 1 / Real.log 2 * -Real.log 2 * Real.log 7 = Real.log (81/7) := by
    rw [Real.log_div (by norm_num) (by norm_num), show (81 : ℝ) = 9 ^ 2 by norm_num, Real.log_pow]
    field_simp
    push_cast
    ring
  rw [this, Real.exp_log (by norm_num)]

/-- **C23** violated below the table: for the energy 1/2 and a table starting at 1 the first tabulated value 9 is
returned when the previous search ended at the first row, and the extrapolation 81/7 otherwise. -/
theorem C23_below_table_violated :
    (∃ m, value (fromTable [] [1, 2] [[(1 : ℝ), 9], [2, 7]] [("coherent".toList, 1)] (1 / 2) 0) = .ok m ∧
      Element.at0 m "coherent".toList = 9) ∧
    (∃ m, value (fromTable [] [1, 2] [[(1 : ℝ), 9], [2, 7]] [("coherent".toList, 1)] (1 / 2) 1) = .ok m ∧
      Element.at0 m "coherent".toList = 81 / 7) := by
  have hk1 : "coherent".toList ∉ derivedKeys := by decide +kernel
  have hk2 : "coherent".toList ∈ plainKeys := by decide +kernel
  have h1 : interpolationIndices [(1:ℝ), 2] (1/2) 0 = .ok ((0, 0), 0) := by
    norm_num [interpolationIndices, startIndex, vget, bisect]
  have h2 : interpolationIndices [(1:ℝ), 2] (1/2) 1 = .ok ((0, 1), 1) := by
    norm_num [interpolationIndices, startIndex, vget, bisect]
  have hf : ∀ v : ℝ, Element.at0 (finish (SMap.insert [("energy".toList, (1/2 : ℝ))] "coherent".toList v)) "coherent".toList = v := by
    intro v
    rw [at0_finish _ _ (by decide +kernel)]
    simp [Element.at0]
  constructor
  · refine ⟨_, ?_, hf 9⟩
    norm_num [fromTable, h1, adjustRows, vget, labelLoop, hk1, hk2, plainValue, Rows.same, cell, vgetI, value]
  · refine ⟨_, ?_, hf (81/7)⟩
    norm_num [fromTable, h2, adjustRows, vget, labelLoop, hk1, hk2, plainValue, Rows.same, cell, vgetI, value, Element.logLogGuarded]
    rw [logLog_example]

/-- **C23** violated above the table: after a search that ended at or beyond the last row (for instance in a longer
table) the last value 1 is returned, otherwise the extrapolation 1/2. -/
theorem C23_above_table_violated :
    (∃ m, value (fromTable [] [1, 2] [[(1 : ℝ), 2], [2, 1]] [("coherent".toList, 1)] 4 5) = .ok m ∧
      Element.at0 m "coherent".toList = 1) ∧
    (∃ m, value (fromTable [] [1, 2] [[(1 : ℝ), 2], [2, 1]] [("coherent".toList, 1)] 4 0) = .ok m ∧
      Element.at0 m "coherent".toList = 1 / 2) := by
  have hk1 : "coherent".toList ∉ derivedKeys := by decide +kernel
  have hk2 : "coherent".toList ∈ plainKeys := by decide +kernel
  have h1 : interpolationIndices [(1:ℝ), 2] 4 5 = .ok ((1, 1), 1) := by
    norm_num [interpolationIndices, startIndex, vget, bisect, upperLimit]
  have h2 : interpolationIndices [(1:ℝ), 2] 4 0 = .ok ((0, 1), 0) := by
    norm_num [interpolationIndices, startIndex, vget, bisect, upperLimit]
  have hf : ∀ v : ℝ, Element.at0 (finish (SMap.insert [("energy".toList, (4 : ℝ))] "coherent".toList v))
      "coherent".toList = v := by
    intro v
    rw [at0_finish _ _ (by decide +kernel)]
    simp [Element.at0]
  have hll : Element.logLog (4 : ℝ) 1 2 2 1 = 1 / 2 := by
    have h2 : Real.log 2 ≠ 0 := ne_of_gt (Real.log_pos (by norm_num : (1:ℝ) < 2))
    show Real.exp (Real.log (2 / 4) * (1 / Real.log (2/1)) * Real.log 2 + 1 / Real.log (2/1) * Real.log (4/1) *
      Real.log 1) = _
    rw [Real.log_one, mul_zero, add_zero, div_one, one_div, mul_assoc, inv_mul_cancel₀ h2, mul_one,
      Real.exp_log (by norm_num)]
    norm_num
  constructor
  · refine ⟨_, ?_, hf 1⟩
    norm_num [fromTable, h1, adjustRows, vget, labelLoop, hk1, hk2, plainValue, Rows.same, cell, vgetI, value]
  · refine ⟨_, ?_, hf (1 / 2)⟩
    norm_num [fromTable, h2, adjustRows, vget, labelLoop, hk1, hk2, plainValue, Rows.same, cell, vgetI, value,
      Element.logLogGuarded]
    rw [hll]

/-- The hypotheses of `C23_history_independent_partial` are met by a table with an absorption edge, and an energy at
the edge. -/
example (last last' : Nat) :
    value (fromTable [("K".toList, (2 : ℝ))] [1, 2, 2, 3, 4]
        [[1, 9, 0], [2, 7, 0], [2, 7, 40], [3, 5, 30], [4, 4, 20]] exampleLabels 2 last)
      = value (fromTable [("K".toList, (2 : ℝ))] [1, 2, 2, 3, 4]
        [[1, 9, 0], [2, 7, 0], [2, 7, 40], [3, 5, 30], [4, 4, 20]] exampleLabels 2 last') := by
  apply C23_history_independent_partial
  · refine ⟨by simp, ?_, ?_, ?_, ?_⟩
    · intro x hx
      simp only [List.mem_cons, List.not_mem_nil, or_false] at hx
      rcases hx with rfl | rfl | rfl | rfl | rfl <;> norm_num
    · simp only [List.pairwise_cons, List.mem_cons, List.not_mem_nil, or_false, forall_eq_or_imp, forall_eq,
        List.Pairwise.nil, and_true, false_imp_iff, implies_true]
      norm_num
    · intro i hi
      have hi : i + 1 < 5 := hi
      obtain h : i = 0 ∨ i = 1 ∨ i = 2 ∨ i = 3 := by omega
      rcases h with rfl | rfl | rfl | rfl <;> norm_num
    · intro i hi
      have hi : i + 2 < 5 := hi
      obtain h : i = 0 ∨ i = 1 ∨ i = 2 := by omega
      rcases h with rfl | rfl | rfl <;> norm_num
  · intro p hp hd
    simp only [exampleLabels, List.mem_cons, List.not_mem_nil, or_false] at hp
    rcases hp with rfl | rfl | rfl
    · refine ⟨fun i => [(0 : ℝ), 0, 40, 30, 20].getD i 0, ?_, ?_, ?_, ?_⟩
      · intro i hi
        have hi : i < 5 := hi
        interval_cases i <;> rfl
      · intro i hi
        have hi : i < 5 := hi
        interval_cases i <;> norm_num
      · intro i hi
        have hi : i + 1 < 5 := hi
        obtain h : i = 0 ∨ i = 1 ∨ i = 2 ∨ i = 3 := by omega
        rcases h with rfl | rfl | rfl | rfl <;> norm_num
      · intro i hi
        have hi : i + 1 < 5 := hi
        obtain h : i = 0 ∨ i = 1 ∨ i = 2 ∨ i = 3 := by omega
        rcases h with rfl | rfl | rfl | rfl <;> norm_num
    · refine ⟨fun i => [(9 : ℝ), 7, 7, 5, 4].getD i 0, ?_, ?_, ?_, ?_⟩
      · intro i hi
        have hi : i < 5 := hi
        interval_cases i <;> rfl
      · intro i hi
        have hi : i < 5 := hi
        interval_cases i <;> norm_num
      · intro i hi
        have hi : i + 1 < 5 := hi
        obtain h : i = 0 ∨ i = 1 ∨ i = 2 ∨ i = 3 := by omega
        rcases h with rfl | rfl | rfl | rfl <;> norm_num
      · intro i hi
        have hi : i + 1 < 5 := hi
        obtain h : i = 0 ∨ i = 1 ∨ i = 2 ∨ i = 3 := by omega
        rcases h with rfl | rfl | rfl | rfl <;> norm_num
    · exact absurd (by decide +kernel) hd
  · exact ⟨by simp, by norm_num⟩
  · exact ⟨by simp, by norm_num⟩


/-! ### C62 the sums -/

/-- The ten partial photoelectric coefficients. -/
def shellSum (m : SMap Str K) : K := (Element.photoShells.map (fun s => Element.at0 m s)).sum

theorem photoSum_eq (m : SMap Str K) : photoSum m = shellSum m := by
  unfold photoSum shellSum Element.photoShells Element.keys
  simp only [List.map_append, List.map_cons, List.map_nil, List.sum_append, List.sum_cons, List.sum_nil]
  ring

theorem shellSum_congr {m m' : SMap Str K} (h : ∀ s ∈ Element.photoShells, Element.at0 m s = Element.at0 m' s) :
    shellSum m = shellSum m' := by
  unfold shellSum
  congr 1
  exact List.map_congr_left h

theorem photo_ne : ∀ s ∈ Element.photoShells,
    s ∉ ["pair".toList, "photoelectric".toList, "total".toList] ∧ "energy".toList ≠ s := by decide +kernel

theorem finish_sums (m : SMap Str K) :
    Element.at0 (finish m) "photoelectric".toList = shellSum (finish m) ∧
    Element.at0 (finish m) "total".toList = Element.at0 (finish m) "photoelectric".toList
      + Element.at0 (finish m) "coherent".toList + Element.at0 (finish m) "compton".toList
      + Element.at0 (finish m) "pair".toList ∧
    Element.at0 (finish m) "pair".toList = 0 := by
  have hs : shellSum (finish m) = shellSum m :=
    shellSum_congr (fun s hs => at0_finish m s (photo_ne s hs).1)
  have hs' : shellSum (m.insert "pair".toList 0) = shellSum m := by
    apply shellSum_congr
    intro s hs
    have := (photo_ne s hs).1
    rw [at0_insert, if_neg]
    rintro rfl
    exact this List.mem_cons_self
  have e1 : "total".toList ≠ "photoelectric".toList := by decide +kernel
  have e2 : "total".toList ≠ "pair".toList := by decide +kernel
  have e3 : "photoelectric".toList ≠ "pair".toList := by decide +kernel
  have e4 : "photoelectric".toList ≠ "coherent".toList := by decide +kernel
  have e5 : "photoelectric".toList ≠ "compton".toList := by decide +kernel
  have e6 : "pair".toList ≠ "coherent".toList := by decide +kernel
  have e7 : "pair".toList ≠ "compton".toList := by decide +kernel
  have c1 : Element.at0 (finish m) "coherent".toList = Element.at0 m "coherent".toList :=
    at0_finish m _ (by decide +kernel)
  have c2 : Element.at0 (finish m) "compton".toList = Element.at0 m "compton".toList :=
    at0_finish m _ (by decide +kernel)
  generalize hT : "total".toList = T at *
  generalize hP : "photoelectric".toList = P at *
  generalize hR : "pair".toList = R at *
  generalize hC : "coherent".toList = C at *
  generalize hD : "compton".toList = D at *
  have hp : Element.at0 (finish m) P = shellSum m := by
    unfold finish
    simp only [at0_insert, at0_touch, hT, hP, hR, hC, hD]
    rw [if_neg e1, if_pos trivial, photoSum_eq, hs']
  have hpair : Element.at0 (finish m) R = 0 := by
    unfold finish
    simp only [at0_insert, at0_touch, hT, hP, hR, hC, hD]
    rw [if_neg e2, if_neg e3, if_pos trivial]
  refine ⟨by rw [hp, hs], ?_, hpair⟩
  rw [hpair, hp, c1, c2]
  unfold finish
  simp only [at0_insert, at0_touch, hT, hP, hR, hC, hD]
  rw [if_pos trivial, if_neg e4, if_neg e5, if_neg e6, if_neg e7, photoSum_eq, hs']

theorem fromTable_finish [Trans K] {b : SMap Str K} {E : List K} {rows : List (List K)} {labels : SMap Str Int} {x : K}
    {last l : Nat} {m : SMap Str K} (h : fromTable b E rows labels x last = .ok (m, l)) :
    ∃ r m', labelLoop b E r rows x labels [("energy".toList, x)] = .ok m' ∧ m = finish m' := by
  unfold fromTable at h
  obtain ⟨i, _, h⟩ := Outcome.bind_eq_ok.1 h
  obtain ⟨r, _, h⟩ := Outcome.bind_eq_ok.1 h
  obtain ⟨m', hm, h⟩ := Outcome.bind_eq_ok.1 h
  refine ⟨r, m', hm, ?_⟩
  simp only [Outcome.pure_eq, Outcome.ok.injEq, Prod.mk.injEq] at h
  exact h.1.symm

theorem getMu_table [Trans K] {e : EPDL97 K} {z : Int} {x : K} {last l : Nat} {m : SMap Str K}
    (h : getMu e z x last = .ok (m, l)) :
    ∃ E rows b, vgetI e.muEnergy (elementIndex e z) = .ok E ∧ vgetI e.values (elementIndex e z) = .ok rows ∧
      vgetI e.binding (elementIndex e z) = .ok b ∧ fromTable b E rows e.labelIndex x last = .ok (m, l) := by
  unfold getMu at h
  split at h
  · exact absurd h (by simp)
  split at h
  · exact absurd h (by simp)
  obtain ⟨E, h1, h⟩ := Outcome.bind_eq_ok.1 h
  obtain ⟨rows, h2, h⟩ := Outcome.bind_eq_ok.1 h
  obtain ⟨b, h3, h⟩ := Outcome.bind_eq_ok.1 h
  exact ⟨E, rows, b, h1, h2, h3, h⟩

/-- **C62** Whatever the data loaded, when coefficients are returned for an element and energy the photoelectric one
is the sum of the ten partial ones and the total one the sum of photoelectric, coherent, Compton and pair. -/
theorem C62_sums [Trans K] (e : EPDL97 K) (z : Int) (x : K) (last l : Nat) (m : SMap Str K)
    (h : getMu e z x last = .ok (m, l)) :
    Element.at0 m "photoelectric".toList = shellSum m ∧
    Element.at0 m "total".toList = Element.at0 m "photoelectric".toList + Element.at0 m "coherent".toList
      + Element.at0 m "compton".toList + Element.at0 m "pair".toList := by
  obtain ⟨E, rows, b, _, _, _, h⟩ := getMu_table h
  obtain ⟨_, m', _, hm⟩ := fromTable_finish h
  have := finish_sums m'
  rw [hm]
  exact ⟨this.1, this.2.1⟩

/-! ### C50, C51: histories -/

/-- The calls that change an EPDL97 object. A file is given by its scans (`none`: it cannot be read). -/
inductive Op (K : Type)
  | setDataDirectory (binding cross : Option (List (Scan K)))
  | loadBindingEnergies (binding : Option (List (Scan K)))
  | setBindingEnergies (z : Int) (b : SMap Str K)

def step (e : EPDL97 K) : Op K → EPDL97 K
  | .setDataDirectory b c => (setDataDirectory e b c).2
  | .loadBindingEnergies b => (loadBindingEnergies e b).2
  | .setBindingEnergies z b => (setBindingEnergies e z b).2

/-- Any history, the failed calls included. -/
def run (ops : List (Op K)) : EPDL97 K := ops.foldl step new

/-- What holds after every history: the tables of energies and of values have the same shape, and the coefficients
of the remaining shells are not negative. -/
structure Inv (e : EPDL97 K) : Prop where
  sorted : e.labelIndex.Sorted
  len : e.values.length = e.muEnergy.length
  shape : ∀ i (h : i < e.values.length) (h' : i < e.muEnergy.length), e.values[i].length = e.muEnergy[i].length
  other : ∀ rows ∈ e.values, ∀ r ∈ rows, ∀ y, vgetI r (idxOf e.labelIndex "all other") = .ok y → 0 ≤ y

theorem inv_new : Inv (new : EPDL97 K) := by
  refine ⟨SMap.sorted_nil, rfl, ?_, ?_⟩
  · intro i h; simp [new] at h
  · intro rows h; simp [new] at h

/-- The invariant does not look at the binding energies. -/
theorem inv_congr {e e' : EPDL97 K} (h : Inv e) (h1 : e'.labelIndex = e.labelIndex) (h2 : e'.values = e.values)
    (h3 : e'.muEnergy = e.muEnergy) : Inv e' := by
  obtain ⟨i, b, l, v, m⟩ := e
  obtain ⟨i', b', l', v', m'⟩ := e'
  simp only at h1 h2 h3
  subst h1 h2 h3
  exact ⟨h.sorted, h.len, h.shape, h.other⟩

theorem loadBinding_inv {e : EPDL97 K} (h : Inv e) (f : Option (List (Scan K))) : Inv (loadBindingEnergies e f).2 := by
  apply inv_congr h <;>
  · unfold loadBindingEnergies
    repeat' split
    all_goals rfl

theorem setBinding_inv {e : EPDL97 K} (h : Inv e) (z : Int) (b : SMap Str K) : Inv (setBindingEnergies e z b).2 := by
  apply inv_congr h <;>
  · unfold setBindingEnergies
    repeat' split
    all_goals rfl

theorem findLabels_sorted (labels : List Str) : ∀ (w : List Str) (acc : SMap Str Int), acc.Sorted →
    (findLabels labels w acc).2.Sorted := by
  intro w
  induction w with
  | nil => intro acc h; exact h
  | cons a rest ih =>
    intro acc h
    unfold findLabels
    simp only
    split
    · exact SMap.insert_sorted h _ _
    · exact ih _ (SMap.insert_sorted h _ _)

theorem vsetI_get {α : Type} {v v' : List α} {i : Int} {a : α} (h : vsetI v i a = .ok v') : vgetI v' i = .ok a := by
  unfold vsetI at h
  split at h
  · exact absurd h (by simp)
  · rename_i hc
    simp only [not_or, not_lt, not_le] at hc
    injection h with h
    subst h
    unfold vgetI
    rw [if_neg (by omega)]
    have : i.toNat < (v.set i.toNat a).length := by rw [List.length_set]; omega
    rw [vget_lt _ _ this]
    simp

theorem clampOther_nonneg {L : SMap Str Int} {row row' : List K} (h : clampOther L row = .ok row') (y : K)
    (hy : vgetI row' (idxOf L "all other") = .ok y) : 0 ≤ y := by
  unfold clampOther at h
  obtain ⟨o, ho, h⟩ := Outcome.bind_eq_ok.1 h
  split at h
  · rw [vsetI_get h] at hy
    injection hy with hy
    exact hy.le
  · rename_i hn
    injection h with h
    subst h
    rw [ho] at hy
    injection hy with hy
    subst hy
    exact not_lt.1 hn

theorem recalcRow_nonneg {L : SMap Str Int} {i : Nat} {row : List K} {a : K × List K}
    (h : recalcRow L i row = .ok a) (y : K) (hy : vgetI a.2 (idxOf L "all other") = .ok y) : 0 ≤ y := by
  unfold recalcRow at h
  obtain ⟨_, _, h⟩ := Outcome.bind_eq_ok.1 h
  obtain ⟨_, _, h⟩ := Outcome.bind_eq_ok.1 h
  obtain ⟨_, _, h⟩ := Outcome.bind_eq_ok.1 h
  obtain ⟨_, _, h⟩ := Outcome.bind_eq_ok.1 h
  obtain ⟨_, _, h⟩ := Outcome.bind_eq_ok.1 h
  obtain ⟨_, _, h⟩ := Outcome.bind_eq_ok.1 h
  obtain ⟨r, hr, h⟩ := Outcome.bind_eq_ok.1 h
  injection h with h
  subst h
  exact clampOther_nonneg hr y hy

theorem recalcRows_nonneg {L : SMap Str Int} {i : Nat} : ∀ {rows : List (List K)} {t : List (K × List K)},
    recalcRows L i rows = .ok t → ∀ a ∈ t, ∀ y, vgetI a.2 (idxOf L "all other") = .ok y → 0 ≤ y := by
  intro rows
  induction rows with
  | nil =>
    intro t h a ha
    unfold recalcRows at h
    injection h with h
    subst h
    simp at ha
  | cons r rest ih =>
    intro t h a ha y hy
    unfold recalcRows at h
    obtain ⟨b, hb, h⟩ := Outcome.bind_eq_ok.1 h
    obtain ⟨t', ht', h⟩ := Outcome.bind_eq_ok.1 h
    injection h with h
    subst h
    rcases List.mem_cons.1 ha with rfl | ha
    · exact recalcRow_nonneg hb y hy
    · exact ih ht' a ha y hy

/-- The tables while the scans are read. -/
structure TablesInv (L : SMap Str Int) (values : List (List (List K))) (energies : List (List K)) : Prop where
  len : values.length = energies.length
  shape : ∀ i (h : i < values.length) (h' : i < energies.length), values[i].length = energies[i].length
  other : ∀ rows ∈ values, ∀ r ∈ rows, ∀ y, vgetI r (idxOf L "all other") = .ok y → 0 ≤ y

theorem readScans_inv (labels : List Str) (L : SMap Str Int) : ∀ (scans : List (Scan K)) (i : Nat)
    (values : List (List (List K))) (energies : List (List K)), TablesInv L values energies →
    TablesInv L (readScans labels L scans i values energies).2.1 (readScans labels L scans i values energies).2.2 := by
  intro scans
  induction scans with
  | nil => intro i v e h; exact h
  | cons s rest ih =>
    intro i v e h
    unfold readScans
    split
    · exact h
    · cases hr : recalcRows L i s.rows with
      | ok t =>
        simp only
        apply ih
        refine ⟨by simp [h.len], ?_, ?_⟩
        · intro j hj hj'
          rw [List.getElem_set, List.getElem_set]
          split
          · simp
          · exact h.shape j (by simpa using hj) (by simpa using hj')
        · intro rows hrows r hr' y hy
          rcases List.mem_or_eq_of_mem_set hrows with hrows | rfl
          · exact h.other rows hrows r hr' y hy
          · obtain ⟨a, ha, rfl⟩ := List.mem_map.1 hr'
            exact recalcRows_nonneg hr a ha y hy
      | throw x => exact h
      | ub u => exact h
      | diverge => exact h

theorem resize_empty {α : Type} (n : Nat) : resize ([] : List (List α)) n = List.replicate n [] := by
  simp [resize]

/-- Loading the cross sections into an object without tables. -/
theorem loadCross_inv {e : EPDL97 K} (h : Inv e) (hv : e.values = []) (hm : e.muEnergy = [])
    (f : Option (List (Scan K))) : Inv (loadCrossSections e f).2 := by
  have hempty : ∀ L : SMap Str Int, L.Sorted → Inv { e with labelIndex := L } := by
    intro L hL
    refine ⟨hL, h.len, h.shape, ?_⟩
    intro rows hr
    simp [hv] at hr
  unfold loadCrossSections
  cases f with
  | none => exact h
  | some scans =>
    simp only
    split
    · exact h
    · split
      · exact h
      · set labels := (scans.head?.map Scan.labels).getD [] with hlab
        have hs := findLabels_sorted labels interestingLabels e.labelIndex h.sorted
        cases hf : (findLabels labels interestingLabels e.labelIndex).1 with
        | ok _ =>
          simp only
          have ht : TablesInv (findLabels labels interestingLabels e.labelIndex).2
              (resize e.values scans.length) (resize e.muEnergy scans.length) := by
            rw [hv, hm, resize_empty, resize_empty]
            refine ⟨by simp, by simp, ?_⟩
            intro rows hrows r hr
            have := List.eq_of_mem_replicate hrows
            subst this
            simp at hr
          have h' := readScans_inv labels (findLabels labels interestingLabels e.labelIndex).2 scans 0 _ _ ht
          exact ⟨hs, h'.len, h'.shape, h'.other⟩
        | throw x => exact hempty _ hs
        | ub u => exact hempty _ hs
        | diverge => exact hempty _ hs

theorem loadBinding_tables (e : EPDL97 K) (f : Option (List (Scan K))) :
    (loadBindingEnergies e f).2.values = e.values ∧ (loadBindingEnergies e f).2.muEnergy = e.muEnergy := by
  constructor <;>
  · unfold loadBindingEnergies
    repeat' split
    all_goals rfl

theorem step_inv {e : EPDL97 K} (h : Inv e) (op : Op K) : Inv (step e op) := by
  cases op with
  | setDataDirectory b c =>
    have h1 := loadBinding_inv (inv_new (K := K)) b
    obtain ⟨t1, t2⟩ := loadBinding_tables (new : EPDL97 K) b
    have h2 := loadCross_inv h1 t1 t2 c
    show Inv (setDataDirectory e b c).2
    unfold setDataDirectory
    simp only
    cases hb : (loadBindingEnergies (new : EPDL97 K) b).1 with
    | ok _ =>
      simp only
      cases hc : (loadCrossSections (loadBindingEnergies (new : EPDL97 K) b).2 c).1 with
      | ok _ => exact inv_congr h2 rfl rfl rfl
      | throw _ => exact h2
      | ub _ => exact h2
      | diverge => exact h2
    | throw _ => exact h1
    | ub _ => exact h1
    | diverge => exact h1
  | loadBindingEnergies b => exact loadBinding_inv h b
  | setBindingEnergies z b => exact setBinding_inv h z b

theorem run_inv (ops : List (Op K)) : Inv (run ops) := by
  unfold run
  have : ∀ (e : EPDL97 K), Inv e → Inv (ops.foldl step e) := by
    induction ops with
    | nil => intro e h; exact h
    | cons o rest ih => intro e h; exact ih _ (step_inv h o)
  exact this _ inv_new

theorem mem_of_vgetI {α : Type} {v : List α} {i : Int} {a : α} (h : vgetI v i = .ok a) : a ∈ v := by
  unfold vgetI at h
  split at h
  · exact absurd h (by simp)
  · by_cases hl : i.toNat < v.length
    · rw [vget_lt _ _ hl] at h
      injection h with h
      subst h
      exact List.getElem_mem _
    · rw [vget_ge _ _ (not_lt.1 hl)] at h
      exact absurd h (by simp)

theorem logLogGuarded_nonneg [Trans K] (hexp : Element.ExpNonneg K) (x x0 x1 y0 y1 : K) : 0 ≤ Element.logLogGuarded x x0 x1 y0 y1 := by
  unfold Element.logLogGuarded
  split
  · exact hexp _
  · split
    · exact hexp _
    · exact le_refl _

theorem excitedValue_nonneg [Trans K] (hexp : Element.ExpNonneg K) {E : List K} {r : Rows K} {rows : List (List K)} {idx : Int} {x y : K}
    (h : excitedValue E r rows idx x = .ok y) : 0 ≤ y := by
  have hext : extrapolate E rows idx r.i1 x = .ok y → 0 ≤ y := by
    intro h
    unfold extrapolate at h
    obtain ⟨_, _, h⟩ := Outcome.bind_eq_ok.1 h
    obtain ⟨_, _, h⟩ := Outcome.bind_eq_ok.1 h
    obtain ⟨_, _, h⟩ := Outcome.bind_eq_ok.1 h
    obtain ⟨_, _, h⟩ := Outcome.bind_eq_ok.1 h
    obtain ⟨_, _, h⟩ := Outcome.bind_eq_ok.1 h
    injection h with h
    rw [← h]
    exact hexp _
  unfold excitedValue at h
  split at h
  · obtain ⟨y0, _, h⟩ := Outcome.bind_eq_ok.1 h
    split at h
    · rename_i hp
      injection h with h
      rw [← h]; exact hp.le
    · obtain ⟨y1, _, h⟩ := Outcome.bind_eq_ok.1 h
      split at h
      · rename_i hp
        injection h with h
        rw [← h]; exact hp.2.le
      · exact hext h
  · obtain ⟨y0, _, h⟩ := Outcome.bind_eq_ok.1 h
    split at h
    · obtain ⟨y1, _, h⟩ := Outcome.bind_eq_ok.1 h
      split at h
      · injection h with h
        rw [← h]; exact hexp _
      · injection h with h
        rw [← h]
    · exact hext h

/-- The loop over the labels produces non-negative partial photoelectric coefficients when the column of the
remaining shells is not negative. -/
theorem labelLoop_nonneg [Trans K] (hexp : Element.ExpNonneg K) {b : SMap Str K} {E : List K} {r : Rows K} {rows : List (List K)} {x : K} :
    ∀ (labels : List (Str × Int)) (acc m : SMap Str K),
    (∀ p ∈ labels, p.1 = Element.allOther → ∀ i y, cell rows i p.2 = .ok y → 0 ≤ y) →
    (∀ s ∈ Element.photoShells, 0 ≤ Element.at0 acc s) →
    labelLoop b E r rows x labels acc = .ok m → ∀ s ∈ Element.photoShells, 0 ≤ Element.at0 m s := by
  intro labels
  induction labels with
  | nil =>
    intro acc m _ h2 h s hs
    unfold labelLoop at h
    injection h with h
    subst h
    exact h2 s hs
  | cons p rest ih =>
    intro acc m h1 h2 h
    obtain ⟨key, idx⟩ := p
    have h1' := fun p hp => h1 p (List.mem_cons_of_mem _ hp)
    unfold labelLoop at h
    split at h
    · exact ih _ _ h1' h2 h
    · split at h
      · rename_i hk
        obtain ⟨v, hv, h⟩ := Outcome.bind_eq_ok.1 h
        refine ih _ _ h1' ?_ h
        intro s hs
        rw [at0_insert]
        split
        · rename_i hks
          subst hks
          have hall : key = Element.allOther := by
            revert hk hs
            have : ∀ k ∈ plainKeys, k ∈ Element.photoShells → k = Element.allOther := by decide +kernel
            exact fun hk hs => this key hk hs
          unfold plainValue at hv
          split at hv
          · exact h1 (key, idx) List.mem_cons_self hall _ _ hv
          · obtain ⟨_, _, hv⟩ := Outcome.bind_eq_ok.1 hv
            obtain ⟨_, _, hv⟩ := Outcome.bind_eq_ok.1 hv
            injection hv with hv
            rw [← hv]
            exact logLogGuarded_nonneg hexp _ _ _ _ _
        · exact h2 s hs
      · split at h
        · obtain ⟨v, hv, h⟩ := Outcome.bind_eq_ok.1 h
          refine ih _ _ h1' ?_ h
          intro s hs
          rw [at0_insert]
          split
          · unfold shellValue at hv
            split at hv
            · exact absurd hv (by simp)
            · split at hv
              · exact excitedValue_nonneg hexp hv
              · injection hv with hv
                rw [← hv]
          · exact h2 s hs
        · exact ih _ _ h1' h2 h

/-- After every history the partial photoelectric coefficients returned are not negative. -/
theorem getMu_nonneg [Trans K] (hexp : Element.ExpNonneg K) (ops : List (Op K)) (z : Int) (x : K) (last l : Nat) (m : SMap Str K)
    (h : getMu (run ops) z x last = .ok (m, l)) : ∀ s ∈ Element.photoShells, 0 ≤ Element.at0 m s := by
  have hinv := run_inv ops
  obtain ⟨E, rows, b, _, hrows, _, h⟩ := getMu_table h
  obtain ⟨r, m', hm, hfin⟩ := fromTable_finish h
  intro s hs
  rw [hfin, at0_finish m' s (photo_ne s hs).1]
  refine labelLoop_nonneg hexp _ _ _ ?_ ?_ hm s hs
  · intro p hp hall i y hy
    obtain ⟨hi, hy⟩ := cell_lt hy
    refine hinv.other rows (mem_of_vgetI hrows) rows[i] (List.getElem_mem _) y ?_
    have : idxOf (run ops).labelIndex "all other" = p.2 := by
      unfold idxOf
      rw [SMap.find?_of_mem hinv.sorted (k := "all other".toList) (v := p.2)]
      · rfl
      · have : p = ("all other".toList, p.2) := by
          rw [Prod.ext_iff]
          exact ⟨hall, rfl⟩
        rw [this] at hp
        exact hp
    rw [this]
    exact hy
  · intro s hs
    have : Element.at0 [("energy".toList, x)] s = 0 := by
      unfold Element.at0
      rw [SMap.find?_cons, if_neg (photo_ne s hs).2]
      rfl
    rw [this]

/-- **C50** After every history of calls (failed ones included), the partial photoelectric weights returned for an
element and energy are not negative and either sum to one or are all null (`exp` is not negative: true of the real one). -/
theorem C50_weights [Trans K] (hexp : Element.ExpNonneg K) (ops : List (Op K)) (z : Int) (x : K) (last l : Nat) (w : SMap Str K)
    (h : getWeights (run ops) z x last = .ok (w, l)) :
    (∀ s ∈ Element.photoShells, 0 ≤ Element.at0 w s) ∧
    (shellSum w = 1 ∨ ∀ s ∈ Element.photoShells, Element.at0 w s = 0) := by
  unfold getWeights at h
  obtain ⟨⟨m, l'⟩, hm, h⟩ := Outcome.bind_eq_ok.1 h
  have hnn := getMu_nonneg hexp ops z x last l' m hm
  have hsum := (C62_sums _ _ _ _ _ _ hm).1
  simp only at h
  have key : ∀ (f : Str → K), ∀ s ∈ Element.photoShells,
      Element.at0 (SMap.ofList (Element.photoShells.map (fun s => (s, f s)))) s = f s := by
    intro f s hs
    unfold Element.at0
    rw [Element.ofList_photo, SMap.find?_of_mem_nodup]
    · rfl
    · rw [List.map_map]
      have : (Prod.fst ∘ fun s => (s, f s)) = id := by funext s; rfl
      rw [this, List.map_id]
      decide +kernel
    · exact List.mem_map.2 ⟨s, hs, rfl⟩
  split at h
  · simp only [Outcome.pure_eq, Outcome.ok.injEq, Prod.mk.injEq] at h
    obtain ⟨rfl, _⟩ := h
    refine ⟨fun s hs => by rw [key _ s hs], Or.inr (fun s hs => key _ s hs)⟩
  · rename_i hpos
    simp only [Outcome.pure_eq, Outcome.ok.injEq, Prod.mk.injEq] at h
    obtain ⟨rfl, _⟩ := h
    have hp : 0 < Element.at0 m "photoelectric".toList := by
      have : (0 : K) < 1 / 10000000000 := by norm_num
      linarith [not_le.1 hpos]
    refine ⟨fun s hs => by rw [key _ s hs]; exact div_nonneg (hnn s hs) hp.le, Or.inl ?_⟩
    unfold shellSum
    have hcongr : (Element.photoShells.map (fun s => Element.at0 (SMap.ofList (Element.photoShells.map (fun s =>
        (s, Element.at0 m s / Element.at0 m "photoelectric".toList)))) s))
        = Element.photoShells.map (fun s => Element.at0 m s / Element.at0 m "photoelectric".toList) :=
      List.map_congr_left (fun s hs => key _ s hs)
    rw [hcongr]
    simp only [div_eq_mul_inv]
    rw [List.sum_map_mul_right]
    have : (Element.photoShells.map (fun s => Element.at0 m s)).sum = Element.at0 m "photoelectric".toList := by
      rw [hsum]; rfl
    rw [this]
    exact mul_inv_cancel₀ hp.ne'


theorem real_expNonneg : Element.ExpNonneg ℝ := fun x => (Real.exp_pos x).le

section example50

attribute [local instance] Element.exampleTrans

/-- A file of 99 equal scans with two energies. -/
def exampleScan : Scan ℚ :=
  { labels := ["PhotonEnergy", "Coherent", "Compton", "K", "L1", "L2", "L3", "M1", "M2", "M3", "M4", "M5",
      "AllOther", "Photoelectric", "Total"].map String.toList
    rows := [[1, 1, 1, 5, 1, 0, 0, 0, 0, 0, 0, 0, 1, 8, 10], [3, 1, 1, 3, 1, 0, 0, 0, 0, 0, 0, 0, 1, 6, 8]] }

def exampleBinding : Scan ℚ :=
  { labels := ["Z", "K(1s)", "L1", "L2", "L3", "M1", "M2", "M3", "M4", "M5"].map String.toList
    rows := List.replicate 99 [1, 1 / 2, 1 / 4, 0, 0, 0, 0, 0, 0, 0] }

/-- A history, an element and an energy meeting the hypotheses of `C50_weights`, with non-null weights. -/
example : (getWeights (run [.setDataDirectory (some [exampleBinding]) (some (List.replicate 99 exampleScan))]) 20 2 0).bind
    (fun r => .ok (decide (0 < Element.at0 r.1 "K".toList ∧ 0 < Element.at0 r.1 Element.allOther ∧ shellSum r.1 = 1)))
      = .ok true := by decide +kernel

/-- The same for `C62_sums`. -/
example : (getMu (run [.setDataDirectory (some [exampleBinding]) (some (List.replicate 99 exampleScan))]) 20 2 0).bind
    (fun r => .ok (decide (0 < Element.at0 r.1 "photoelectric".toList ∧
      Element.at0 r.1 "photoelectric".toList < Element.at0 r.1 "total".toList))) = .ok true := by decide +kernel

end example50

/-! ### C62, the whole table -/

/-- The value of a key of the table at the energy number `i`. -/
def colAt (m : SMap Str (List K)) (k : Str) (i : Nat) : K := ((m.find? k).getD []).getD i 0

theorem colAt_insert (m : SMap Str (List K)) (k k' : Str) (c : List K) (i : Nat) :
    colAt (m.insert k c) k' i = if k = k' then c.getD i 0 else colAt m k' i := by
  unfold colAt
  rw [SMap.find?_insert]
  split <;> rfl

theorem sum_insert (m : SMap Str (List K)) (k : Str) (c : List K) (i : Nat) (hk : m.find? k = none) (l : List Str)
    (hl : l.Nodup) : (l.map (fun s => colAt (m.insert k c) s i)).sum
      = (l.map (fun s => colAt m s i)).sum + (if k ∈ l then c.getD i 0 else 0) := by
  induction l with
  | nil => simp
  | cons a rest ih =>
    have hnd := List.nodup_cons.1 hl
    simp only [List.map_cons, List.sum_cons]
    rw [ih hnd.2, colAt_insert]
    by_cases h : k = a
    · subst h
      rw [if_pos rfl, if_neg hnd.1, if_pos List.mem_cons_self]
      have : colAt m k i = 0 := by unfold colAt; simp [hk]
      rw [this]
      ring
    · rw [if_neg h]
      have : (k ∈ a :: rest) ↔ k ∈ rest := by simp [h]
      simp only [this]
      ring

theorem column_length : ∀ {n : Nat} {rows : List (List K)} {idx : Int} {c : List K},
    column rows n idx = .ok c → c.length = n := by
  intro n
  induction n with
  | zero => intro rows idx c h; unfold column at h; injection h with h; subst h; rfl
  | succ n ih =>
    intro rows idx c h
    cases rows with
    | nil => exact absurd h (by simp [column])
    | cons r rest =>
      unfold column at h
      obtain ⟨_, _, h⟩ := Outcome.bind_eq_ok.1 h
      obtain ⟨t, ht, h⟩ := Outcome.bind_eq_ok.1 h
      injection h with h
      subst h
      simp [ih ht]

theorem getD_zipWith_add {a b : List K} (h : a.length = b.length) (i : Nat) :
    (List.zipWith (· + ·) a b).getD i 0 = a.getD i 0 + b.getD i 0 := by
  simp only [List.getD_eq_getElem?_getD, List.getElem?_zipWith]
  by_cases hi : i < a.length
  · have hb : i < b.length := by omega
    simp [hi, hb]
  · have hb : ¬ i < b.length := by omega
    simp [hi, hb]

/-- The keys of the processes that are not photoelectric. -/
def otherKeys : List Str := ["coherent".toList, "compton".toList, "pair".toList]

/-- What the loop over the labels maintains. -/
structure AccInv (n : Nat) (a : TableAcc K) : Prop where
  lenP : a.photo.length = n
  lenR : a.rest.length = n
  photo : ∀ i, a.photo.getD i 0 = (Element.photoShells.map (fun s => colAt a.result s i)).sum
  rest : ∀ i, a.rest.getD i 0 = (otherKeys.map (fun s => colAt a.result s i)).sum

theorem photo_nodup : Element.photoShells.Nodup := by decide +kernel
theorem other_nodup : otherKeys.Nodup := by decide +kernel

theorem tableLoop_inv {rows : List (List K)} {n : Nat} : ∀ (labels : List (Str × Int)) (a a' : TableAcc K),
    (labels.map Prod.fst).Nodup → (∀ p ∈ labels, a.result.find? p.1 = none) → AccInv n a →
    tableLoop rows n labels a = .ok a' →
    AccInv n a' ∧ ∀ k, k ∉ labels.map Prod.fst → a'.result.find? k = a.result.find? k := by
  intro labels
  induction labels with
  | nil =>
    intro a a' _ _ hi h
    unfold tableLoop at h
    injection h with h
    subst h
    exact ⟨hi, fun _ _ => rfl⟩
  | cons p more ih =>
    intro a a' hnd hfresh hi h
    obtain ⟨key, idx⟩ := p
    simp only [List.map_cons, List.nodup_cons] at hnd
    unfold tableLoop at h
    split at h
    · obtain ⟨h1, h2⟩ := ih a a' hnd.2 (fun p hp => hfresh p (List.mem_cons_of_mem _ hp)) hi h
      refine ⟨h1, fun k hk => h2 k ?_⟩
      simp only [List.map_cons, List.mem_cons, not_or] at hk
      exact hk.2
    · obtain ⟨c, hc, h⟩ := Outcome.bind_eq_ok.1 h
      have hlen := column_length hc
      have hkey : a.result.find? key = none := hfresh (key, idx) List.mem_cons_self
      obtain ⟨h1, h2⟩ := ih _ a' hnd.2 (by
        intro p hp
        simp only
        rw [SMap.find?_insert, if_neg]
        · exact hfresh p (List.mem_cons_of_mem _ hp)
        · intro he
          exact hnd.1 (he ▸ List.mem_map.2 ⟨p, hp, rfl⟩)) (by
        refine ⟨?_, ?_, ?_, ?_⟩
        · simp only
          split
          · simp [hi.lenP, hlen]
          · exact hi.lenP
        · simp only
          split
          · simp [hi.lenR, hlen]
          · exact hi.lenR
        · intro i
          simp only
          rw [sum_insert _ _ _ _ hkey _ photo_nodup, ← hi.photo i]
          split
          · rw [getD_zipWith_add (by rw [hi.lenP, hlen])]
          · rw [add_zero]
        · intro i
          simp only
          rw [sum_insert _ _ _ _ hkey _ other_nodup, ← hi.rest i]
          unfold otherKeys
          split
          · rw [getD_zipWith_add (by rw [hi.lenR, hlen])]
          · rw [add_zero]) h
      refine ⟨h1, fun k hk => ?_⟩
      simp only [List.map_cons, List.mem_cons, not_or] at hk
      rw [h2 k hk.2]
      simp only
      rw [SMap.find?_insert, if_neg (fun he => hk.1 he.symm)]

theorem findLabels_keys (labels : List Str) : ∀ (w : List Str) (acc : SMap Str Int) (k : Str),
    k ∉ w → (findLabels labels w acc).2.find? k = acc.find? k := by
  intro w
  induction w with
  | nil => intro acc k _; rfl
  | cons a rest ih =>
    intro acc k hk
    simp only [List.mem_cons, not_or] at hk
    unfold findLabels
    simp only
    split
    · simp only [SMap.find?_insert, if_neg (fun h : a = k => hk.1 h.symm)]
    · rw [ih _ k hk.2, SMap.find?_insert, if_neg (fun h : a = k => hk.1 h.symm)]

/-- **C62** (whole table) After every history, in the table returned for an element the photoelectric coefficient at
each energy is the sum of the ten partial ones and the total one the sum of photoelectric, coherent, Compton and
pair. -/
theorem C62_table_sums (ops : List (Op K)) (z : Int) (m : SMap Str (List K)) (h : getTable (run ops) z = .ok m)
    (i : Nat) :
    colAt m "photoelectric".toList i = (Element.photoShells.map (fun s => colAt m s i)).sum ∧
    colAt m "total".toList i = colAt m "photoelectric".toList i + colAt m "coherent".toList i
      + colAt m "compton".toList i + colAt m "pair".toList i := by
  have hinv := run_inv ops
  unfold getTable at h
  split at h
  · exact absurd h (by simp)
  split at h
  · exact absurd h (by simp)
  obtain ⟨rows, _, h⟩ := Outcome.bind_eq_ok.1 h
  obtain ⟨E, _, h⟩ := Outcome.bind_eq_ok.1 h
  obtain ⟨a, ha, h⟩ := Outcome.bind_eq_ok.1 h
  injection h with hfin
  have hz : ∀ j, (List.replicate E.length (0 : K)).getD j 0 = 0 := by
    intro j
    simp only [List.getD_eq_getElem?_getD, List.getElem?_replicate]
    split <;> rfl
  have hcol0 : ∀ (l : List Str) j, (l.map (fun s => colAt ([] : SMap Str (List K)) s j)).sum = 0 := by
    intro l j
    induction l with
    | nil => rfl
    | cons b t ih => simp only [List.map_cons, List.sum_cons, ih]; simp [colAt]
  obtain ⟨hacc, hkeep⟩ := tableLoop_inv (n := E.length) _ _ _ (SMap.keys_nodup hinv.sorted) (fun p _ => rfl)
    (by
      refine ⟨by simp, by simp, ?_, ?_⟩
      · intro j
        simp only
        rw [hz, hcol0]
      · intro j
        simp only
        rw [hz, hcol0]) ha
  -- the table before "photoelectric" and "total" are set
  generalize hm0 : (if (run ops).labelIndex.mem "pair".toList then a.result
    else a.result.insert "pair".toList (List.replicate E.length 0)) = m0 at hfin
  have hm : ∀ s j, colAt m0 s j = colAt a.result s j := by
    intro s j
    rw [← hm0]
    split
    · rfl
    · rename_i hmem
      rw [colAt_insert]
      split
      · rename_i hs
        subst hs
        rw [hz]
        have : a.result.find? "pair".toList = none := by
          rw [hkeep]
          · rfl
          · intro hc
            apply hmem
            obtain ⟨p, hp, hpk⟩ := List.mem_map.1 hc
            unfold SMap.mem
            have : (run ops).labelIndex.find? "pair".toList = some p.2 := by
              apply SMap.find?_of_mem hinv.sorted
              have : p = ("pair".toList, p.2) := by rw [← hpk]
              rw [this] at hp
              exact hp
            rw [this]
            rfl
        unfold colAt
        rw [this]
        simp
      · rfl
  have e1 : "total".toList ≠ "photoelectric".toList := by decide +kernel
  have e4 : "photoelectric".toList ≠ "coherent".toList := by decide +kernel
  have e5 : "photoelectric".toList ≠ "compton".toList := by decide +kernel
  have e3 : "photoelectric".toList ≠ "pair".toList := by decide +kernel
  have t4 : "total".toList ≠ "coherent".toList := by decide +kernel
  have t5 : "total".toList ≠ "compton".toList := by decide +kernel
  have t3 : "total".toList ≠ "pair".toList := by decide +kernel
  have hrest := hacc.rest i
  unfold otherKeys at hrest
  have hph : ∀ s ∈ Element.photoShells, colAt m s i = colAt a.result s i := by
    intro s hs
    have hn := (photo_ne s hs).1
    simp only [List.mem_cons, List.not_mem_nil, or_false, not_or] at hn
    rw [← hfin, colAt_insert, if_neg (fun hh => hn.2.2 hh.symm), colAt_insert, if_neg (fun hh => hn.2.1 hh.symm), hm]
  clear h
  generalize hT : "total".toList = T at *
  generalize hP : "photoelectric".toList = P at *
  generalize hR : "pair".toList = R at *
  generalize hC : "coherent".toList = C at *
  generalize hD : "compton".toList = D at *
  simp only [List.map_cons, List.map_nil, List.sum_cons, List.sum_nil, add_zero] at hrest
  have hp : colAt m P i = a.photo.getD i 0 := by
    rw [← hfin, colAt_insert, if_neg e1, colAt_insert, if_pos rfl]
  constructor
  · rw [hp, hacc.photo i]
    congr 1
    exact (List.map_congr_left hph).symm
  · have ht : colAt m T i = a.rest.getD i 0 + a.photo.getD i 0 := by
      rw [← hfin, colAt_insert, if_pos rfl, getD_zipWith_add (by rw [hacc.lenP, hacc.lenR])]
    have h1 : colAt m C i = colAt a.result C i := by
      rw [← hfin, colAt_insert, if_neg t4, colAt_insert, if_neg e4, hm]
    have h2 : colAt m D i = colAt a.result D i := by
      rw [← hfin, colAt_insert, if_neg t5, colAt_insert, if_neg e5, hm]
    have h3 : colAt m R i = colAt a.result R i := by
      rw [← hfin, colAt_insert, if_neg t3, colAt_insert, if_neg e3, hm]
    rw [ht, hp, h1, h2, h3, hrest]
    ring

/-- A history and an element meeting the hypotheses of `C62_table_sums`. -/
example : (getTable (run [.setDataDirectory (some [exampleBinding]) (some (List.replicate 99 exampleScan))]) 30).bind
    (fun m => .ok (decide (0 < colAt m "photoelectric".toList 1 ∧
      colAt m "photoelectric".toList 1 < colAt m "total".toList 1))) = .ok true := by decide +kernel

/-! ### C51 -/

/-- **C51** (low) Every method taking an atomic number rejects the numbers below one, after every history, and the
object is unchanged. -/
theorem C51_low_rejected [Trans K] (e : EPDL97 K) (z : Int) (hz : z < 1) (x : K) (last : Nat) (b : SMap Str K) :
    getMu e z x last = .throw .runtimeError ∧ getWeights e z x last = .throw .runtimeError ∧
    getTable e z = .throw .runtimeError ∧ getBindingEnergies e z = .throw .runtimeError ∧
    setBindingEnergies e z b = (.throw .runtimeError, e) := by
  have h1 : getMu e z x last = .throw .runtimeError := by
    unfold getMu
    split
    · rfl
    · rfl
  refine ⟨h1, ?_, ?_, ?_, ?_⟩
  · unfold getWeights
    rw [h1]
    rfl
  · unfold getTable
    split
    · rfl
    · rfl
  · unfold getBindingEnergies
    rw [if_pos hz]
  · unfold setBindingEnergies
    rw [if_pos hz]

/-- The element used for an atomic number: the last one loaded for higher numbers. -/
def usedIndex (n : Nat) (z : Int) : Nat := min z.toNat n - 1

theorem elementIndex_eq (e : EPDL97 K) (z : Int) (hz : 1 ≤ z) (hn : 0 < e.muEnergy.length) :
    elementIndex e z = (usedIndex e.muEnergy.length z : Int) := by
  unfold elementIndex usedIndex
  split <;> omega

/-- **C51** (high) After every history that left at least as many elements with binding energies as with cross
sections, the data used for a number `z` of at least one are those of the element `z`, or of the last element loaded
for the higher numbers. -/
theorem C51_element_used_partial [Trans K] (ops : List (Op K)) (z : Int) (hz : 1 ≤ z) (x : K) (last : Nat)
    (hi : (run ops).initialized = true) (hn : 0 < (run ops).muEnergy.length)
    (hb : (run ops).muEnergy.length ≤ (run ops).binding.length) :
    ∃ (h1 : usedIndex (run ops).muEnergy.length z < (run ops).muEnergy.length)
      (h2 : usedIndex (run ops).muEnergy.length z < (run ops).values.length)
      (h3 : usedIndex (run ops).muEnergy.length z < (run ops).binding.length),
      getMu (run ops) z x last = fromTable (run ops).binding[usedIndex (run ops).muEnergy.length z]
        (run ops).muEnergy[usedIndex (run ops).muEnergy.length z]
        (run ops).values[usedIndex (run ops).muEnergy.length z] (run ops).labelIndex x last := by
  have hinv := run_inv ops
  have hlt : usedIndex (run ops).muEnergy.length z < (run ops).muEnergy.length := by
    unfold usedIndex; omega
  refine ⟨hlt, by rw [hinv.len]; exact hlt, by omega, ?_⟩
  unfold getMu
  rw [if_neg (by simp [hi]), if_neg (by omega), elementIndex_eq _ _ hz hn, Element.vgetI_nat _ _ hlt,
    Element.vgetI_nat _ _ (by rw [hinv.len]; exact hlt), Element.vgetI_nat _ _ (by omega)]
  simp only [Outcome.ok_bind]

example : (run [.setDataDirectory (some [exampleBinding]) (some (List.replicate 99 exampleScan))]).initialized = true
    ∧ (run [.setDataDirectory (some [exampleBinding]) (some (List.replicate 99 exampleScan))]).muEnergy.length = 99
    ∧ (run [.setDataDirectory (some [exampleBinding]) (some (List.replicate 99 exampleScan))]).binding.length = 99 := by
  decide +kernel

/-- **C51** violated: setting the binding energies of an element beyond the ones loaded writes outside the table. -/
theorem C51_set_beyond_violated (e : EPDL97 K) (z : Int) (hz : 1 ≤ z) (h : (e.binding.length : Int) < z)
    (b : SMap Str K) : (setBindingEnergies e z b).1 = .ub .outOfBounds := by
  unfold setBindingEnergies
  rw [if_neg (by omega), if_neg (by omega)]

/-- **C51** violated: an object on which only `loadBindingEnergies` was called reports itself as initialized, and a
request for coefficients reads outside its empty tables. -/
theorem C51_binding_only_violated [Trans K] (z : Int) (hz : 1 ≤ z) (x : K) (last : Nat) (scan : Scan K)
    (hs : (loadBindingEnergies (new : EPDL97 K) (some [scan])).1 = .ok ()) :
    getMu (run [.loadBindingEnergies (some [scan])]) z x last = .ub .outOfBounds := by
  have h : (run [.loadBindingEnergies (some [scan])] : EPDL97 K) = (loadBindingEnergies new (some [scan])).2 := rfl
  have h1 : (loadBindingEnergies (new : EPDL97 K) (some [scan])).2.initialized = true := by
    revert hs
    unfold loadBindingEnergies
    simp only
    repeat' split
    all_goals simp
  obtain ⟨_, h3⟩ := loadBinding_tables (new : EPDL97 K) (some [scan])
  rw [h]
  unfold getMu
  rw [h1, if_neg (by simp), if_neg (by omega), h3]
  simp [vgetI, elementIndex, new, vget]

example : (loadBindingEnergies (new : EPDL97 ℚ) (some [exampleBinding])).1 = .ok () := by decide +kernel

/-- **C51** violated: a cross section file that is rejected leaves an object that reports itself as initialized
(the binding energies were read) and then reads outside its tables. -/
theorem C51_failed_load_violated : 
    (setDataDirectory (new : EPDL97 ℚ) (some [exampleBinding]) none).1 = .throw .ioFailure ∧
    (run [.setDataDirectory (some [exampleBinding]) none] : EPDL97 ℚ).initialized = true ∧
    letI := Element.exampleTrans
    (getMu (run [.setDataDirectory (some [exampleBinding]) none] : EPDL97 ℚ) 1 1 0).isUB = true := by
  decide +kernel

end EPDL97
end Fisx
