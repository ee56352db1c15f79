import Verif.ElementProps
import Verif.ElementInterp
import Mathlib.Analysis.SpecialFunctions.Pow.Real

/-!
# C22 (tables with zero values), C52 (which tables of a shell are accepted)
-/

set_option linter.unusedSectionVars false

namespace Fisx
namespace Element

section real

/-- The straight line in the plane (log energy, log coefficient) through `(x0, y0)` and `(x1, y1)`. -/
def OnLogLine (x0 y0 x1 y1 x y : ℝ) : Prop :=
  0 < y ∧ (Real.log y - Real.log y0) * (Real.log x1 - Real.log x0) =
    (Real.log y1 - Real.log y0) * (Real.log x - Real.log x0)

/-- The search for data stops at the first row from `i` on with a positive value. -/
theorem firstPositive_first {V : List ℝ} {i w : Nat} (hiw : i ≤ w) (hw : w < V.length) (hpos : 0 < V[w])
    (hzero : ∀ j (hj : j < V.length), i ≤ j → j < w → V[j] ≤ 0) : firstPositive V i = .ok w := by
  unfold firstPositive
  have h : (V.drop i).findIdx? (fun y => decide (y > 0)) = some (w - i) := by
    rw [List.findIdx?_eq_some_iff_getElem]
    refine ⟨by rw [List.length_drop]; omega, ?_, ?_⟩
    · rw [List.getElem_drop]
      have : i + (w - i) = w := by omega
      simp only [this]
      simpa using hpos
    · intro j hj
      rw [List.getElem_drop]
      have := hzero (i + j) (by omega) (by omega) (by omega)
      simpa using this
  rw [h]
  show Outcome.ok (i + (w - i)) = Outcome.ok w
  congr 1; omega

/-- **C22** (extrapolation) Where the energy is above the binding energy of a shell but the table still has no
data (`V[k] ≤ 0` on `(E[k], E[k+1]]`), the coefficient is on the straight log-log line through the first two rows
of the table with data, continued down to the energy. -/
theorem C22_extrapolates {E V : List ℝ} (h : GoodTable E) (hlen : V.length = E.length) {k w : Nat} {x : ℝ}
    (hkw : k < w) (hw : w + 1 < E.length) (hw0 : w < V.length) (hw1 : w + 1 < V.length) (hk : k + 1 < E.length)
    (hx : E[k] < x ∧ x ≤ E[k + 1])
    (hzero : ∀ j (hj : j < V.length), k ≤ j → j < w → V[j] ≤ 0) (hp0 : 0 < V[w]) (hp1 : 0 < V[w + 1]) :
    ∃ y, partialValue false E V x = .ok y ∧ OnLogLine E[w] V[w] E[w + 1] V[w + 1] x y := by
  have hxk : 0 < E[k] := h.2.1 _ (List.getElem_mem _)
  have hx0 : 0 < x := lt_trans hxk hx.1
  have hgap := good_lt h (by omega : k < E.length) hk (by omega)
  have hgapw := good_lt h (by omega : w < E.length) hw (by omega)
  have hEw : 0 < E[w] := h.2.1 _ (List.getElem_mem _)
  have hEw1 : 0 < E[w + 1] := h.2.1 _ (List.getElem_mem _)
  have hval : partialValue false E V x = .ok (Real.exp (Real.log V[w] +
      (Real.log (V[w + 1] / V[w]) / Real.log (E[w + 1] / E[w])) * Real.log (x / E[w]))) := by
    unfold partialValue
    rw [good_bracket h hk (Or.inl hx)]
    simp only [Outcome.ok_bind]
    rw [if_neg (by
      rintro (hh | hh)
      · omega
      · linarith)]
    have e1 : ((k : Int) + 1) = ((k + 1 : Nat) : Int) := by push_cast; ring
    rw [vgetI_nat V k (by omega), e1, vgetI_nat V (k + 1) (by omega)]
    simp only [Outcome.ok_bind, Bool.false_eq_true, if_false]
    rw [if_neg (not_lt.2 (hzero k (by omega) (le_refl _) hkw)), Int.toNat_natCast,
      firstPositive_first (by omega) hw0 hp0 hzero]
    simp only [Outcome.ok_bind]
    rw [vget_lt E w (by omega), vget_lt E (w + 1) hw]
    simp only [Outcome.ok_bind]
    rw [if_neg (by linarith), vget_lt E w (by omega), vget_lt E (w + 1) hw, vget_lt V w hw0, vget_lt V (w + 1) hw1]
    rfl
  refine ⟨_, hval, Real.exp_pos _, ?_⟩
  have hL : Real.log E[w + 1] - Real.log E[w] ≠ 0 := by
    have := Real.log_lt_log hEw (by linarith : E[w] < E[w + 1])
    linarith
  rw [Real.log_exp, Real.log_div hp1.ne' hp0.ne', Real.log_div hEw1.ne' hEw.ne', Real.log_div hx0.ne' hEw.ne']
  field_simp
  ring

example : ∃ y, partialValue false ([1, 2, 3, 4] : List ℝ) [0, 0, 5, 6] (3 / 2) = .ok y ∧
    OnLogLine 3 5 4 6 (3 / 2) y := by
  have hg : GoodTable ([1, 2, 3, 4] : List ℝ) := by
    refine ⟨by simp, ?_, ?_⟩
    · intro x hx
      simp only [List.mem_cons, List.not_mem_nil, or_false] at hx
      rcases hx with rfl | rfl | rfl | rfl <;> norm_num
    · simp only [List.pairwise_cons, List.mem_cons, List.not_mem_nil, or_false, forall_eq_or_imp, forall_eq,
        List.Pairwise.nil, and_true, false_imp_iff, implies_true]
      norm_num
  have := C22_extrapolates (V := [0, 0, 5, 6]) (x := 3 / 2) (k := 0) (w := 2) hg rfl (by omega) (by simp) (by simp)
    (by simp) (by simp) ?_ ?_ ?_ ?_
  · simpa using this
  · constructor <;> norm_num
  · intro j hj _ h2
    have : j = 0 ∨ j = 1 := by omega
    rcases this with rfl | rfl <;> simp
  · simp
  · simp

/-- What is read from a table with values that are not positive, between its rows `k` and `k + 1`: nothing where
the upper value is not positive or right above the lower energy; from one positive value upwards, the power of the
energy that goes from one at the lower energy to that value; and the interpolation between two positive values. -/
def ZeroRule (x0 y0 x1 y1 x y : ℝ) : Prop :=
  (y1 ≤ 0 → y = 0) ∧ (y0 ≤ 0 → x ≤ x0 + 1 / 100000 → y = 0) ∧
  (y0 ≤ 0 → 0 < y1 → x0 + 1 / 100000 < x → OnLogLine x0 1 x1 y1 x y) ∧
  (0 < y0 → 0 < y1 → OnLogLine x0 y0 x1 y1 x y)

theorem guarded_rule {x0 y0 x1 y1 x : ℝ} (h0 : 0 < x0) (h1 : x0 < x) (h2 : x0 < x1) :
    ZeroRule x0 y0 x1 y1 x (logLogGuarded x x0 x1 y0 y1) := by
  have hx : 0 < x := lt_trans h0 h1
  have hx1 : 0 < x1 := lt_trans h0 h2
  have hL : Real.log x1 - Real.log x0 ≠ 0 := by
    have := Real.log_lt_log h0 h2
    linarith
  unfold logLogGuarded
  refine ⟨fun hy => ?_, fun hy hb => ?_, fun hy hp hb => ?_, fun hy hp => ?_⟩
  · rw [if_neg (fun hh => absurd hh.2 (not_lt.2 hy)), if_neg (fun hh => absurd hh.1 (not_lt.2 hy))]
  · rw [if_neg (fun hh => absurd hh.1 (not_lt.2 hy)), if_neg (fun hh => by have := hh.2; linarith)]
  · rw [if_neg (fun hh => absurd hh.1 (not_lt.2 hy)), if_pos ⟨hp, by linarith⟩]
    refine ⟨Real.exp_pos _, ?_⟩
    simp only [Trans.log, Trans.exp]
    rw [Real.log_exp, Real.log_one, Real.log_div hx1.ne' h0.ne', Real.log_div hx.ne' h0.ne']
    field_simp
    ring
  · rw [if_pos ⟨hy, hp⟩]
    unfold logLog
    refine ⟨Real.exp_pos _, ?_⟩
    simp only [Trans.log, Trans.exp]
    rw [Real.log_exp, Real.log_div hx1.ne' h0.ne', Real.log_div hx.ne' h0.ne', Real.log_div hx1.ne' hx.ne']
    field_simp
    ring

/-- **C22** (zero values) The coherent, Compton and pair coefficients and that of the remaining shells, for tables
whose values need not be positive, as pair production below its threshold. -/
theorem C22_zero_values {E V : List ℝ} (h : GoodTable E) {k : Nat}
    (hk : k + 1 < E.length) (hk0 : k < V.length) (hk1 : k + 1 < V.length) {x : ℝ} (hx : E[k] < x ∧ x ≤ E[k + 1]) :
    ∃ y, (do let b ← bracket E x; processValue b x V) = .ok y ∧ partialValue true E V x = .ok y ∧
      ZeroRule E[k] V[k] E[k + 1] V[k + 1] x y := by
  have hxk : 0 < E[k] := h.2.1 _ (List.getElem_mem _)
  have hgap := good_lt h (by omega : k < E.length) hk (by omega)
  refine ⟨logLogGuarded x E[k] E[k + 1] V[k] V[k + 1], ?_, ?_, guarded_rule hxk hx.1 (by linarith)⟩
  · rw [good_bracket h hk (Or.inl hx)]
    simp only [Outcome.ok_bind, processValue]
    rw [if_neg (by
      rintro (hh | hh)
      · omega
      · linarith)]
    have e1 : ((k : Int) + 1) = ((k + 1 : Nat) : Int) := by push_cast; ring
    rw [vgetI_nat V k hk0, e1, vgetI_nat V (k + 1) hk1]
    rfl
  · unfold partialValue
    rw [good_bracket h hk (Or.inl hx)]
    simp only [Outcome.ok_bind]
    rw [if_neg (by
      rintro (hh | hh)
      · omega
      · linarith)]
    have e1 : ((k : Int) + 1) = ((k + 1 : Nat) : Int) := by push_cast; ring
    rw [vgetI_nat V k hk0, e1, vgetI_nat V (k + 1) hk1]
    rfl

example : ∃ y, (do let b ← bracket ([1, 2] : List ℝ) (3 / 2); processValue b (3 / 2) [0, 7]) = .ok y ∧
    OnLogLine 1 1 2 7 (3 / 2) y := by
  have hg : GoodTable ([1, 2] : List ℝ) := by
    refine ⟨by simp, ?_, ?_⟩
    · intro x hx
      simp only [List.mem_cons, List.not_mem_nil, or_false] at hx
      rcases hx with rfl | rfl <;> norm_num
    · simp only [List.pairwise_cons, List.mem_cons, List.not_mem_nil, or_false, forall_eq_or_imp, forall_eq,
        List.Pairwise.nil, and_true, false_imp_iff, implies_true]
      norm_num
  obtain ⟨y, h1, -, -, -, h2, -⟩ := C22_zero_values (k := 0) (V := [0, 7]) (x := 3 / 2) hg (by simp) (by simp)
    (by simp) (by constructor <;> norm_num)
  exact ⟨y, h1, h2 (by simp) (by simp) (by norm_num)⟩

end real

section accepted

variable {K : Type} [Field K] [LinearOrder K] [IsStrictOrderedRing K]

theorem ascendingFrom_iff (l : List K) : ∀ a : K,
    ascendingFrom a l = true ↔ (∀ x ∈ l, a ≤ x) ∧ l.Pairwise (· ≤ ·) := by
  induction l with
  | nil => intro a; simp [ascendingFrom]
  | cons b r ih =>
    intro a
    unfold ascendingFrom
    by_cases hb : b < a
    · rw [if_pos hb]
      constructor
      · intro h; cases h
      · rintro ⟨h, -⟩
        exact absurd (h b (by simp)) (not_le.2 hb)
    · rw [if_neg hb, ih b]
      have hab := not_lt.1 hb
      constructor
      · rintro ⟨h1, h2⟩
        refine ⟨?_, List.pairwise_cons.2 ⟨h1, h2⟩⟩
        intro x hx
        rcases List.mem_cons.1 hx with rfl | hx
        · exact hab
        · exact le_trans hab (h1 x hx)
      · rintro ⟨h1, h2⟩
        exact List.pairwise_cons.1 h2

/-- **C52** (tables of a shell) The table of a shell is accepted exactly when the shell is one of those of an
element, there is a coefficient for each energy, and the energies are not negative and in ascending order; otherwise
`std::invalid_argument` is thrown and the element is as before. -/
theorem C52_shell_table (e : Element K) (shell : Str) (energy values : List K) :
    ((e.partialE.mem shell = true ∧ energy.length = values.length ∧ (∀ x ∈ energy, 0 ≤ x) ∧ energy.Pairwise (· ≤ ·)) ∧
      (e.setPartial shell energy values).1 = .ok ()) ∨
    (¬ (e.partialE.mem shell = true ∧ energy.length = values.length ∧ (∀ x ∈ energy, 0 ≤ x) ∧
        energy.Pairwise (· ≤ ·)) ∧ e.setPartial shell energy values = (.throw .invalidArgument, e)) := by
  have hasc := ascendingFrom_iff energy (0 : K)
  unfold setPartial
  by_cases h1 : e.partialE.mem shell = false
  · right
    rw [if_pos h1]
    exact ⟨fun h => by rw [h1] at h; exact absurd h.1 (by simp), rfl⟩
  · rw [if_neg h1]
    by_cases h2 : energy.length ≠ values.length
    · right
      rw [if_pos h2]
      exact ⟨fun h => h2 h.2.1, rfl⟩
    · rw [if_neg h2]
      by_cases h3 : ascendingFrom 0 energy = false
      · right
        rw [if_pos h3]
        refine ⟨fun h => ?_, rfl⟩
        rw [hasc.2 h.2.2] at h3
        cases h3
      · left
        rw [if_neg h3]
        have h4 := hasc.1 (by simpa using h3)
        refine ⟨⟨by simpa using h1, not_not.1 h2, h4⟩, ?_⟩
        dsimp only
        split_ifs <;> rfl

end accepted

end Element
end Fisx
