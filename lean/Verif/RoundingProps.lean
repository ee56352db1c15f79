import Verif.Rounding
import Verif.MaterialProps
import Verif.BeamProps
import Verif.ShellProps
import Verif.TransmissionTableProps
import Mathlib.Algebra.Order.Ring.Pow
import Mathlib.Tactic.Positivity

/-!
# C183-C186: what is left of the normalisations and of the interpolation when the arithmetic rounds

`Material.setComposition`, `Beam::normalizeBeam`, `Shell::_updateFluorescenceRatios` and
`TransmissionTable::getTransmission`, each with every sum, difference, product and quotient rounded as in C++.
-/

set_option linter.unusedSectionVars false

namespace Fisx

namespace Rounding

variable {u : ℝ} (ρ : Rounding u)

/-- `total += x` over a list: the sums are rounded one after the other. -/
noncomputable def sum (l : List ℝ) (t : ℝ) : ℝ := l.foldl (fun t a => ρ.rnd (t + a)) t

theorem sum_bounds (h0 : 0 ≤ u) (h1 : u < 1) (l : List ℝ) (t : ℝ) (hl : ∀ a ∈ l, 0 ≤ a) (ht : 0 ≤ t) :
    (1 - u) ^ l.length * (t + l.sum) ≤ ρ.sum l t ∧ ρ.sum l t ≤ (1 + u) ^ l.length * (t + l.sum) := by
  induction l generalizing t with
  | nil => simp [sum]
  | cons a r ih =>
    have ha : 0 ≤ a := hl a (by simp)
    have hr : ∀ x ∈ r, 0 ≤ x := fun x hx => hl x (List.mem_cons_of_mem _ hx)
    have hrs : 0 ≤ r.sum := List.sum_nonneg hr
    have hta : 0 ≤ t + a := add_nonneg ht ha
    obtain ⟨i1, i2⟩ := ih (ρ.rnd (t + a)) hr (ρ.nonneg hta)
    have e : ρ.sum (a :: r) t = ρ.sum r (ρ.rnd (t + a)) := rfl
    rw [e, List.length_cons, List.sum_cons]
    have d := ρ.ge_down hta
    have p := ρ.le_up hta
    constructor
    · refine le_trans ?_ i1
      rw [pow_succ, mul_assoc]
      apply mul_le_mul_of_nonneg_left _ (pow_nonneg (by linarith) _)
      nlinarith
    · refine le_trans i2 ?_
      rw [pow_succ, mul_assoc]
      apply mul_le_mul_of_nonneg_left _ (pow_nonneg (by linarith) _)
      nlinarith

theorem exact_sum (l : List ℝ) (t : ℝ) : exact.sum l t = t + l.sum := by
  induction l generalizing t with
  | nil => simp [sum]
  | cons a r ih =>
    have e : exact.sum (a :: r) t = exact.sum r (t + a) := rfl
    rw [e, ih, List.sum_cons, add_assoc]

theorem sum_fits (l : List ℝ) (t : ℝ) (ht : ρ.Fits t) : ρ.Fits (ρ.sum l t) := by
  induction l generalizing t with
  | nil => exact ht
  | cons a r ih => exact ih _ (ρ.idem _)

/-- The rounded sum of numbers of the machine is not below any of them. -/
theorem le_sum (l : List ℝ) (t : ℝ) (hl : ∀ a ∈ l, 0 ≤ a) (hf : ∀ a ∈ l, ρ.Fits a) (ht : 0 ≤ t) (hft : ρ.Fits t) :
    t ≤ ρ.sum l t ∧ ∀ a ∈ l, a ≤ ρ.sum l t := by
  induction l generalizing t with
  | nil => simp [sum]
  | cons a r ih =>
    have ha : 0 ≤ a := hl a (by simp)
    have hta : 0 ≤ t + a := add_nonneg ht ha
    obtain ⟨i1, i2⟩ := ih (ρ.rnd (t + a)) (fun x hx => hl x (List.mem_cons_of_mem _ hx))
      (fun x hx => hf x (List.mem_cons_of_mem _ hx)) (ρ.nonneg hta) (ρ.idem _)
    have e : ρ.sum (a :: r) t = ρ.sum r (ρ.rnd (t + a)) := rfl
    rw [e]
    have k1 : t ≤ ρ.rnd (t + a) := by
      have := ρ.mono (show t ≤ t + a by linarith)
      rwa [show ρ.rnd t = t from hft] at this
    have k2 : a ≤ ρ.rnd (t + a) := by
      have := ρ.mono (show a ≤ t + a by linarith)
      rwa [show ρ.rnd a = a from hf a (by simp)] at this
    refine ⟨le_trans k1 i1, ?_⟩
    intro x hx
    rcases List.mem_cons.1 hx with rfl | hx
    · exact le_trans k2 i1
    · exact i2 x hx

theorem sum_pos (h0 : 0 ≤ u) (h1 : u < 1) (l : List ℝ) (hl : ∀ a ∈ l, 0 ≤ a) (hS : 0 < l.sum) :
    0 < ρ.sum l 0 := by
  have := (ρ.sum_bounds h0 h1 l 0 hl (le_refl _)).1
  rw [zero_add] at this
  exact lt_of_lt_of_le (mul_pos (pow_pos (by linarith) _) hS) this

/-- The share of one amount in a rounded total, rounded, against the exact share. -/
theorem share_close (h0 : 0 ≤ u) (l : List ℝ) (hl : ∀ a ∈ l, 0 ≤ a) (hS : 0 < l.sum)
    (hn : (l.length + 1 : ℝ) * u ≤ 1 / 2) (a : ℝ) (ha : 0 ≤ a) :
    |ρ.rnd (a / ρ.sum l 0) - a / l.sum| ≤ 2 * (l.length + 1) * u * (a / l.sum) := by
  have hn0 : (0 : ℝ) ≤ l.length := Nat.cast_nonneg _
  have hnu : (l.length : ℝ) * u ≤ 1 / 2 := by nlinarith
  have h1 : u < 1 := by nlinarith
  have hT := ρ.sum_pos h0 h1 l hl hS
  obtain ⟨b1, b2⟩ := ρ.sum_bounds h0 h1 l 0 hl (le_refl _)
  rw [zero_add] at b1 b2
  set T := ρ.sum l 0 with hTd
  set S := l.sum with hSd
  set n := l.length with hnd
  have hq : 0 ≤ a / T := div_nonneg ha (le_of_lt hT)
  have r1 := ρ.le_up hq
  have r2 := ρ.ge_down hq
  set r := ρ.rnd (a / T) with hr
  have hrT1 : r * T ≤ (1 + u) * a := by
    have := mul_le_mul_of_nonneg_right r1 (le_of_lt hT)
    rwa [mul_assoc, div_mul_cancel₀ _ (ne_of_gt hT)] at this
  have hrT2 : (1 - u) * a ≤ r * T := by
    have := mul_le_mul_of_nonneg_right r2 (le_of_lt hT)
    rwa [mul_assoc, div_mul_cancel₀ _ (ne_of_gt hT)] at this
  have hr0 : 0 ≤ r := ρ.nonneg hq
  have bern : 1 - n * u ≤ (1 - u) ^ n := by
    have := one_add_mul_le_pow (a := -u) (by linarith) n
    have e : 1 + (n : ℝ) * -u = 1 - n * u := by ring
    rw [e] at this
    simpa [sub_eq_add_neg] using this
  have bern1 : 1 - (n + 1) * u ≤ (1 - u) ^ (n + 1) := by
    have := one_add_mul_le_pow (a := -u) (by linarith) (n + 1)
    push_cast at this
    have e : 1 + ((n : ℝ) + 1) * -u = 1 - (n + 1) * u := by ring
    rw [e] at this
    simpa [sub_eq_add_neg] using this
  have up : r * S ≤ (1 + 2 * (n + 1) * u) * a := by
    have k1 : r * S * (1 - n * u) ≤ (1 + u) * a := by
      calc r * S * (1 - n * u) ≤ r * S * (1 - u) ^ n := mul_le_mul_of_nonneg_left bern (by positivity)
        _ = r * ((1 - u) ^ n * S) := by ring
        _ ≤ r * T := mul_le_mul_of_nonneg_left b1 hr0
        _ ≤ (1 + u) * a := hrT1
    have k2 : (1 + u) * a ≤ (1 + 2 * (n + 1) * u) * a * (1 - n * u) := by
      have e : (1 + 2 * (n + 1) * u) * a * (1 - n * u) - (1 + u) * a
          = 2 * ((n : ℝ) + 1) * u * a * (1 / 2 - n * u) := by ring
      have : 0 ≤ 2 * ((n : ℝ) + 1) * u * a * (1 / 2 - n * u) := by
        apply mul_nonneg (by positivity)
        linarith
      linarith
    exact le_of_mul_le_mul_right (le_trans k1 k2) (by linarith)
  have dn : (1 - 2 * (n + 1) * u) * a ≤ r * S := by
    have k0 : (1 + u) ^ n * (1 - u) ^ n ≤ 1 := by
      rw [← mul_pow]
      apply pow_le_one₀
      · nlinarith
      · nlinarith
    calc (1 - 2 * (n + 1) * u) * a ≤ (1 - (n + 1) * u) * a := by
          apply mul_le_mul_of_nonneg_right _ ha
          nlinarith
      _ ≤ (1 - u) ^ (n + 1) * a := mul_le_mul_of_nonneg_right bern1 ha
      _ = (1 - u) ^ n * ((1 - u) * a) := by ring
      _ ≤ (1 - u) ^ n * (r * T) := mul_le_mul_of_nonneg_left hrT2 (pow_nonneg (by linarith) _)
      _ ≤ (1 - u) ^ n * (r * ((1 + u) ^ n * S)) :=
          mul_le_mul_of_nonneg_left (mul_le_mul_of_nonneg_left b2 hr0) (pow_nonneg (by linarith) _)
      _ = r * S * ((1 + u) ^ n * (1 - u) ^ n) := by ring
      _ ≤ r * S * 1 := mul_le_mul_of_nonneg_left k0 (by positivity)
      _ = r * S := mul_one _
  have e : r - a / S = (r * S - a) / S := by field_simp
  rw [e, abs_div, abs_of_pos hS, ← mul_div_assoc]
  apply div_le_div_of_nonneg_right _ (le_of_lt hS)
  rw [abs_le]
  constructor <;> linarith

/-- A sum of rounded shares against the sum of the exact shares. -/
theorem shares_close (h0 : 0 ≤ u) (l : List ℝ) (hl : ∀ a ∈ l, 0 ≤ a) (hS : 0 < l.sum)
    (hn : (l.length + 1 : ℝ) * u ≤ 1 / 2) (m : List ℝ) (hm : ∀ a ∈ m, 0 ≤ a) :
    |(m.map (fun a => ρ.rnd (a / ρ.sum l 0))).sum - m.sum / l.sum|
      ≤ 2 * (l.length + 1) * u * (m.sum / l.sum) := by
  induction m with
  | nil => simp
  | cons a r ih =>
    have i := abs_le.1 (ih (fun x hx => hm x (List.mem_cons_of_mem _ hx)))
    have s := abs_le.1 (ρ.share_close h0 l hl hS hn a (hm a (by simp)))
    simp only [List.map_cons, List.sum_cons, add_div, mul_add]
    rw [abs_le]
    constructor <;> linarith [i.1, i.2, s.1, s.2]

end Rounding

/-! ## C183: compositions -/

namespace Material

variable {u : ℝ}

/-- fisx_material.cpp:129-137, the loop that adds the amounts, with rounded additions. -/
noncomputable def checkAmountsR (ρ : Rounding u) (amounts : List ℝ) (t : ℝ) : Outcome ℝ :=
  match amounts with
  | [] => .ok t
  | a :: rest => if a ≤ 0 then .throw .invalidArgument else checkAmountsR ρ rest (ρ.rnd (t + a))

/-- fisx_material.cpp:141-144, the loop that stores the fractions, with rounded divisions. -/
noncomputable def fillCompositionR (ρ : Rounding u) (pairs : List (String × ℝ)) (t : ℝ) (c : SMap String ℝ) :
    SMap String ℝ :=
  match pairs with
  | [] => c
  | (n, a) :: rest => fillCompositionR ρ rest t (c.insert n (ρ.rnd (a / t)))

/-- fisx_material.cpp:110-146, `setComposition(names, amounts)`, computed with `double`. -/
noncomputable def setCompositionR (ρ : Rounding u) (m : Material ℝ) (names : List String) (amounts : List ℝ) :
    Outcome Unit × Material ℝ :=
  if names.length ≠ amounts.length then (.throw .invalidArgument, m)
  else
    match checkAmountsR ρ amounts 0 with
    | .ok t => (.ok (), { m with composition := fillCompositionR ρ (names.zip amounts) t [] })
    | .throw e => (.throw e, m)
    | .ub b => (.ub b, m)
    | .diverge => (.diverge, m)

theorem checkAmountsR_ok (ρ : Rounding u) (l : List ℝ) (t : ℝ) (h : ∀ a ∈ l, 0 < a) :
    checkAmountsR ρ l t = .ok (ρ.sum l t) := by
  induction l generalizing t with
  | nil => rfl
  | cons a r ih =>
    have ha : ¬ a ≤ 0 := not_le.2 (h a (by simp))
    simp only [checkAmountsR, ha, if_false]
    rw [ih _ (fun x hx => h x (List.mem_cons_of_mem _ hx))]
    rfl

theorem checkAmountsR_throw (ρ : Rounding u) (l : List ℝ) (t : ℝ) (h : ∃ a ∈ l, a ≤ 0) :
    checkAmountsR ρ l t = .throw .invalidArgument := by
  induction l generalizing t with
  | nil => simp at h
  | cons a r ih =>
    by_cases ha : a ≤ 0
    · simp [checkAmountsR, ha]
    · simp only [checkAmountsR, ha, if_false]
      apply ih
      obtain ⟨x, hx, hx0⟩ := h
      rcases List.mem_cons.1 hx with rfl | hx
      · exact absurd hx0 ha
      · exact ⟨x, hx, hx0⟩

theorem fillCompositionR_eq (ρ : Rounding u) (l : List (String × ℝ)) (t : ℝ) (c : SMap String ℝ) :
    fillCompositionR ρ l t c
      = (l.map (fun e => (e.1, ρ.rnd (e.2 / t)))).foldl (fun m e => SMap.insert m e.1 e.2) c := by
  induction l generalizing c with
  | nil => rfl
  | cons e r ih => obtain ⟨n, a⟩ := e; simp only [fillCompositionR, ih, List.map_cons, List.foldl_cons]

theorem setCompositionR_ok (ρ : Rounding u) (m : Material ℝ) (names : List String) (amounts : List ℝ)
    (hl : names.length = amounts.length) (hp : ∀ a ∈ amounts, 0 < a) :
    setCompositionR ρ m names amounts = (.ok (), { m with
      composition := SMap.ofList ((names.zip amounts).map (fun e => (e.1, ρ.rnd (e.2 / ρ.sum amounts 0)))) }) := by
  simp only [setCompositionR, hl, ne_eq, not_true_eq_false, if_false, checkAmountsR_ok ρ amounts 0 hp,
    fillCompositionR_eq, SMap.ofList]

/-- **C183** When the arithmetic rounds, as that of `double` does, `setComposition` accepts the same calls: as many
names as amounts and every amount positive. Without rounding it is the function of C01. -/
theorem C183_accepted (ρ : Rounding u) (m : Material ℝ) (names : List String) (amounts : List ℝ) :
    ((setCompositionR ρ m names amounts).1 = .ok () ↔
      names.length = amounts.length ∧ ∀ a ∈ amounts, 0 < a) ∧
    ((setCompositionR ρ m names amounts).1 ≠ .ok () → (setCompositionR ρ m names amounts).2 = m) ∧
    setCompositionR Rounding.exact m names amounts = m.setComposition names amounts := by
  have key : ∀ (v : ℝ) (σ : Rounding v), (¬ (names.length = amounts.length ∧ ∀ a ∈ amounts, 0 < a) →
      setCompositionR σ m names amounts = (.throw .invalidArgument, m)) := by
    intro v σ hno
    by_cases hl : names.length = amounts.length
    · have hex : ∃ a ∈ amounts, a ≤ 0 := by
        by_contra hc
        push Not at hc
        exact hno ⟨hl, hc⟩
      simp [setCompositionR, hl, checkAmountsR_throw σ _ _ hex]
    · simp [setCompositionR, hl]
  refine ⟨⟨fun h => ?_, fun h => by rw [setCompositionR_ok ρ m names amounts h.1 h.2]⟩, fun h => ?_, ?_⟩
  · by_contra hno
    rw [key u ρ hno] at h
    simp at h
  · by_cases hy : names.length = amounts.length ∧ ∀ a ∈ amounts, 0 < a
    · rw [setCompositionR_ok ρ m names amounts hy.1 hy.2] at h
      simp at h
    · rw [key u ρ hy]
  · by_cases hy : names.length = amounts.length ∧ ∀ a ∈ amounts, 0 < a
    · rw [setCompositionR_ok _ m names amounts hy.1 hy.2, setComposition_ok m names amounts hy.1 hy.2]
      have e : Rounding.exact.sum amounts 0 = amounts.sum := by rw [Rounding.exact_sum, zero_add]
      rw [e]
      rfl
    · rw [key 0 Rounding.exact hy]
      by_cases hl : names.length = amounts.length
      · have hex : ∃ a ∈ amounts, a ≤ 0 := by
          by_contra hc
          push Not at hc
          exact hy ⟨hl, hc⟩
        simp [setComposition, hl, checkAmounts_throw _ _ hex]
      · simp [setComposition, hl]

/-- **C183** With distinct names every fraction that is stored is positive and, for amounts that are numbers of the
machine, at most one; it differs from the exact fraction by at most the part `2 (n + 1) u` of it, `n` the number of
components and `u` the unit roundoff; and the fractions add up to one within `2 (n + 1) u`. -/
theorem C183_fractions (ρ : Rounding u) (h0 : 0 ≤ u) (m : Material ℝ) (names : List String) (amounts : List ℝ)
    (hl : names.length = amounts.length) (hne : amounts ≠ []) (hp : ∀ a ∈ amounts, 0 < a) (hnd : names.Nodup)
    (hn : (amounts.length + 1 : ℝ) * u ≤ 1 / 2) :
    let c := (setCompositionR ρ m names amounts).2.composition
    (∀ (i : Nat) (k : String) (a : ℝ), names[i]? = some k → amounts[i]? = some a → ∃ f, c.find? k = some f ∧
      0 < f ∧ ((∀ b ∈ amounts, ρ.Fits b) → f ≤ 1) ∧
      |f - a / amounts.sum| ≤ 2 * (amounts.length + 1) * u * (a / amounts.sum)) ∧
    (∀ e ∈ c, e.1 ∈ names) ∧
    |(c.map Prod.snd).sum - 1| ≤ 2 * (amounts.length + 1) * u := by
  intro c
  have hnn : ∀ a ∈ amounts, 0 ≤ a := fun a ha => le_of_lt (hp a ha)
  have hS : 0 < amounts.sum := by
    obtain ⟨a, r, hr⟩ := List.exists_cons_of_ne_nil hne
    rw [hr, List.sum_cons]
    have := List.sum_nonneg (l := r) (fun x hx => hnn x (by rw [hr]; exact List.mem_cons_of_mem _ hx))
    linarith [hp a (by rw [hr]; simp)]
  have hc : c = SMap.ofList ((names.zip amounts).map (fun e => (e.1, ρ.rnd (e.2 / ρ.sum amounts 0)))) := by
    simp only [c]
    rw [setCompositionR_ok ρ m names amounts hl hp]
  have hu1 : u < 1 := by
    have : (0 : ℝ) ≤ amounts.length := Nat.cast_nonneg _
    nlinarith
  have hT := ρ.sum_pos h0 hu1 amounts hnn hS
  have hkeys : ((names.zip amounts).map (fun e => (e.1, ρ.rnd (e.2 / ρ.sum amounts 0)))).map Prod.fst = names := by
    rw [List.map_map]
    have : (Prod.fst ∘ fun e : String × ℝ => (e.1, ρ.rnd (e.2 / ρ.sum amounts 0))) = Prod.fst := rfl
    rw [this]
    exact List.map_fst_zip (by omega)
  refine ⟨?_, ?_, ?_⟩
  · intro i k a hk ha
    have hmem : (k, a) ∈ names.zip amounts := by
      rw [List.mem_iff_getElem?]
      exact ⟨i, by rw [List.getElem?_zip_eq_some]; exact ⟨hk, ha⟩⟩
    have ham : a ∈ amounts := List.mem_of_getElem? ha
    refine ⟨ρ.rnd (a / ρ.sum amounts 0), ?_, ?_, ?_, ?_⟩
    · rw [hc]
      apply SMap.find?_of_mem (SMap.ofList_sorted _)
      have hnd' : (((names.zip amounts).map (fun e => (e.1, ρ.rnd (e.2 / ρ.sum amounts 0)))).map Prod.fst).Nodup := by
        rw [hkeys]; exact hnd
      have hm' := List.mem_map_of_mem (f := fun e : String × ℝ => (e.1, ρ.rnd (e.2 / ρ.sum amounts 0))) hmem
      exact SMap.mem_of_find? (by
        unfold SMap.ofList
        rw [SMap.foldl_insert_find? _ _ _ hnd', SMap.find?_of_mem_nodup hnd' hm'])
    · exact ρ.pos hu1 (div_pos (hp a ham) hT)
    · intro hf
      apply ρ.le_one
      rw [div_le_one hT]
      exact (ρ.le_sum amounts 0 hnn hf (le_refl _) ρ.zero).2 a ham
    · exact ρ.share_close h0 amounts hnn hS hn a (hnn a ham)
  · intro e he
    rw [hc] at he
    have := SMap.ofList_mem he
    rw [← hkeys]
    exact List.mem_map_of_mem this
  · have ht : (c.map Prod.snd).sum = (amounts.map (fun a => ρ.rnd (a / ρ.sum amounts 0))).sum := by
      have := SMap.ofList_total ((names.zip amounts).map (fun e => (e.1, ρ.rnd (e.2 / ρ.sum amounts 0))))
        (by rw [hkeys]; exact hnd)
      rw [hc]
      unfold SMap.total at this
      rw [this, List.map_map]
      have e2 : (Prod.snd ∘ fun e : String × ℝ => (e.1, ρ.rnd (e.2 / ρ.sum amounts 0)))
          = (fun a => ρ.rnd (a / ρ.sum amounts 0)) ∘ Prod.snd := rfl
      rw [e2, ← List.map_map, List.map_snd_zip (by omega)]
    rw [ht]
    have := ρ.shares_close h0 amounts hnn hS hn amounts hnn
    rwa [div_self (ne_of_gt hS), mul_one] at this

end Material

/-! ## C184: the weights of a beam -/

namespace Beam

variable {u : ℝ}

/-- fisx_beam.cpp:189-211, `normalizeBeam`, computed with `double`. -/
noncomputable def normalizeBeamR (ρ : Rounding u) (sort : List (Ray ℝ) → List (Ray ℝ)) (rays : List (Ray ℝ)) :
    Beam ℝ :=
  let t := ρ.sum (rays.map Ray.weight) 0
  let scaled := if t > 0 then rays.map (fun r => { r with weight := ρ.rnd (r.weight / t) }) else rays
  { normalized := true, rays := sort scaled }

/-- fisx_beam.cpp:39-119, `setBeam` with vectors, computed with `double`. -/
noncomputable def setBeamR (ρ : Rounding u) (sort : List (Ray ℝ) → List (Ray ℝ)) (b : Beam ℝ)
    (energy weight : List ℝ) (characteristic : List Int) (divergency : List ℝ) : Outcome Unit × Beam ℝ :=
  if energy.length > 0 then
    match buildRays energy 0 weight characteristic divergency with
    | .ok rays => (.ok (), normalizeBeamR ρ sort rays)
    | .throw e => (.throw e, b)
    | .ub u => (.ub u, b)
    | .diverge => (.diverge, b)
  else (.ok (), { normalized := false, rays := [] })

/-- **C184** When the arithmetic rounds, a beam with weights that are not negative, one of them positive, still comes
back sorted by energy, one ray for each ray that was given, with its energy, flag and divergency; every weight differs
from the exact share by at most the part `2 (n + 1) u` of it, and the weights add up to one within `2 (n + 1) u`. With
all the weights zero the beam is only sorted. -/
theorem C184_normalised (ρ : Rounding u) (h0 : 0 ≤ u) (sort : List (Ray ℝ) → List (Ray ℝ)) (hsort : IsSort sort)
    (b : Beam ℝ) (energy weight : List ℝ) (characteristic : List Int) (divergency : List ℝ)
    (hw : Covers weight energy.length) (hc : Covers characteristic energy.length)
    (hd : Covers divergency energy.length) (hpos : ∀ w ∈ weight, 0 ≤ w)
    (hn : (energy.length + 1 : ℝ) * u ≤ 1 / 2) :
    let res := setBeamR ρ sort b energy weight characteristic divergency
    let W := ((List.range energy.length).map (expected weight 1)).sum
    res.1 = .ok () ∧
    res.2.rays.Pairwise (fun r s => r.energy ≤ s.energy) ∧
    (0 < W → (∃ w : ℝ → ℝ, (∀ x, 0 ≤ x → 0 ≤ w x ∧ |w x - x / W| ≤ 2 * (energy.length + 1) * u * (x / W)) ∧
        res.2.rays.Perm ((List.range energy.length).map (fun i =>
          { energy := energy.getD i 0, weight := w (expected weight 1 i),
            characteristic := expected characteristic 1 i, divergency := expected divergency 0 i }))) ∧
      |(res.2.rays.map Ray.weight).sum - 1| ≤ 2 * (energy.length + 1) * u) ∧
    (W = 0 → res.2.rays.Perm ((List.range energy.length).map
      (expectedRay energy weight characteristic divergency))) := by
  intro res W
  have hu1 : u < 1 := by
    have : (0 : ℝ) ≤ energy.length := Nat.cast_nonneg _
    nlinarith
  have hexp : ∀ i, 0 ≤ expected weight 1 i := by
    intro i
    unfold expected
    split
    · exact zero_le_one
    · exact hpos _ (by simp)
    · rw [List.getD_eq_getElem?_getD]
      cases hg : weight[i]? with
      | none => simp
      | some w => simpa using hpos w (List.mem_of_getElem? hg)
  by_cases hne : energy = []
  · subst hne
    have hres : res = (.ok (), { normalized := false, rays := [] }) := by simp [res, setBeamR]
    simp [hres, W]
  · have hlen : energy.length > 0 := List.length_pos_iff.2 hne
    have hb := buildRays_ok energy 0 weight characteristic divergency energy.length (by omega) hw hc hd
    simp only [Nat.zero_add] at hb
    set rays := (List.range energy.length).map (expectedRay energy weight characteristic divergency) with hrays
    have hb' : buildRays energy 0 weight characteristic divergency = .ok rays := by
      rw [hb, hrays]
      congr 1
      apply List.ext_getElem
      · simp
      · intro i h1 h2
        simp at h1
        simp [expectedRay, h1]
    have hres : res = (.ok (), normalizeBeamR ρ sort rays) := by
      simp only [res, setBeamR, hlen, if_true, hb']
    have hws : rays.map Ray.weight = (List.range energy.length).map (expected weight 1) := by
      rw [hrays, List.map_map]
      rfl
    have hnn : ∀ a ∈ rays.map Ray.weight, 0 ≤ a := by
      rw [hws]
      intro a ha
      obtain ⟨i, _, rfl⟩ := List.mem_map.1 ha
      exact hexp i
    have hlenw : (rays.map Ray.weight).length = energy.length := by rw [hws]; simp
    have hW : (rays.map Ray.weight).sum = W := by rw [hws]
    rw [hres]
    refine ⟨rfl, (hsort _).2, ?_, ?_⟩
    · intro hWp
      have hT := ρ.sum_pos h0 hu1 _ hnn (by rw [hW]; exact hWp)
      have hperm : (normalizeBeamR ρ sort rays).rays.Perm (rays.map (fun r => { r with
          weight := ρ.rnd (r.weight / ρ.sum (rays.map Ray.weight) 0) })) := by
        simp only [normalizeBeamR]
        rw [if_pos hT]
        exact (hsort _).1
      have hn' : (((rays.map Ray.weight).length : ℝ) + 1) * u ≤ 1 / 2 := by rw [hlenw]; exact hn
      refine ⟨⟨fun x => ρ.rnd (x / ρ.sum (rays.map Ray.weight) 0), ?_, ?_⟩, ?_⟩
      · intro x hx
        refine ⟨ρ.nonneg (div_nonneg hx (le_of_lt hT)), ?_⟩
        have := ρ.share_close h0 _ hnn (by rw [hW]; exact hWp) hn' x hx
        rwa [hW, hlenw] at this
      · refine hperm.trans (List.Perm.of_eq ?_)
        rw [hrays, List.map_map]
        rfl
      · rw [(hperm.map Ray.weight).sum_eq, List.map_map]
        have e : (Ray.weight ∘ fun r : Ray ℝ => { r with weight := ρ.rnd (r.weight / ρ.sum (rays.map Ray.weight) 0) })
            = (fun a => ρ.rnd (a / ρ.sum (rays.map Ray.weight) 0)) ∘ Ray.weight := rfl
        rw [e, ← List.map_map]
        have := ρ.shares_close h0 _ hnn (by rw [hW]; exact hWp) hn' _ hnn
        rw [hW, div_self (ne_of_gt hWp), mul_one, hlenw] at this
        exact this
    · intro hW0
      have hT : ¬ ρ.sum (rays.map Ray.weight) 0 > 0 := by
        have := (ρ.sum_bounds h0 hu1 _ 0 hnn (le_refl _)).2
        rw [hW, hW0, add_zero, mul_zero] at this
        exact not_lt.2 this
      simp only [normalizeBeamR]
      rw [if_neg hT]
      exact (hsort _).1

end Beam

/-! ## C185: the fluorescence ratios of a shell -/

namespace Shell

variable {u : ℝ}

/-- fisx_shell.cpp:326-360, `_updateFluorescenceRatios`, computed with `double`. -/
noncomputable def fluorescenceRatiosR (ρ : Rounding u) (rad : SMap Str ℝ) : SMap Str ℝ :=
  let t := ρ.sum ((rad.filter (fun e => e.1 ≠ total)).map Prod.snd) 0
  rad.foldl (fun m e => if e.2 > 0 ∧ e.1 ≠ total then m.insert e.1 (ρ.rnd (e.2 / t)) else m) []

/-- fisx_shell.cpp:193-259, `setRadiativeTransitions(labels, values)`, computed with `double`. -/
noncomputable def setRadiativeR (ρ : Rounding u) (s : Shell ℝ) (labels : List Str) (values : List ℝ) :
    Outcome Unit × Shell ℝ :=
  match radiativeLoop s.name labels values 0 [] with
  | (.ok (), m) => (.ok (), { s with radiative := m, fluorescence := fluorescenceRatiosR ρ m })
  | (o, m) => (o, { s with radiative := m })

/-- **C185** When the arithmetic rounds, the fluorescence ratios of a shell are still those of the positive rates other
than TOTAL, each positive and off by at most the part `2 (n + 1) u` of the exact ratio, `n` the number of rates other
than TOTAL, and they add up to one within `2 (n + 1) u`. -/
theorem C185_ratios (ρ : Rounding u) (h0 : 0 ≤ u) {s s' : Shell ℝ} {labels : List Str} {values : List ℝ}
    (h : setRadiativeR ρ s labels values = (.ok (), s')) (hv : ∀ v ∈ values, 0 ≤ v)
    (hex : ∃ k v, s'.radiative.find? k = some v ∧ k ≠ total ∧ 0 < v)
    (hn : ((s'.radiative.filter (fun e => e.1 ≠ total)).length + 1 : ℝ) * u ≤ 1 / 2) :
    (∀ k, (∃ f, s'.fluorescence.find? k = some f) ↔ ∃ v, s'.radiative.find? k = some v ∧ 0 < v ∧ k ≠ total) ∧
    (∀ k f v, s'.fluorescence.find? k = some f → s'.radiative.find? k = some v →
      0 < f ∧ |f - v / rateSum s'.radiative| ≤
        2 * ((s'.radiative.filter (fun e => e.1 ≠ total)).length + 1) * u * (v / rateSum s'.radiative)) ∧
    |(s'.fluorescence.map Prod.snd).sum - 1|
      ≤ 2 * ((s'.radiative.filter (fun e => e.1 ≠ total)).length + 1) * u := by
  have hs' : s' = { s with radiative := (radiativeLoop s.name labels values 0 []).2,
                           fluorescence := fluorescenceRatiosR ρ (radiativeLoop s.name labels values 0 []).2 } := by
    unfold setRadiativeR at h
    split at h
    · rename_i m hm
      simp only [Prod.mk.injEq, true_and] at h
      rw [hm]
      exact h.symm
    · rename_i o m hne hm
      simp only [Prod.mk.injEq] at h
      exact absurd h.1 (fun h' => hne (h' ▸ rfl))
  have hsort := radiativeLoop_sorted s.name labels values 0 ([] : SMap Str ℝ) SMap.sorted_nil
  have hrs : SMap.Sorted s'.radiative := by rw [hs']; exact hsort
  have hnn : ∀ e ∈ s'.radiative, 0 ≤ e.2 := by
    rw [hs']
    exact radiativeLoop_nonneg s.name labels values 0 [] (by simp) hv
  set l := (s'.radiative.filter (fun e => e.1 ≠ total)).map Prod.snd with hl
  have hlen : l.length = (s'.radiative.filter (fun e => e.1 ≠ total)).length := by rw [hl, List.length_map]
  have hsum : rateSum s'.radiative = l.sum := rfl
  have hlnn : ∀ a ∈ l, 0 ≤ a := by
    intro a ha
    obtain ⟨e, he, rfl⟩ := List.mem_map.1 ha
    exact hnn e (List.mem_of_mem_filter he)
  have hS : 0 < l.sum := by
    obtain ⟨k, v, hf, hk, hv0⟩ := hex
    refine lt_of_lt_of_le hv0 (List.single_le_sum hlnn _ ?_)
    exact List.mem_map.2 ⟨(k, v), List.mem_filter.2 ⟨SMap.mem_of_find? hf, by simp [hk]⟩, rfl⟩
  rw [← hlen] at hn ⊢
  have hu1 : u < 1 := by
    have : (0 : ℝ) ≤ l.length := Nat.cast_nonneg _
    nlinarith
  have hT := ρ.sum_pos h0 hu1 l hlnn hS
  have hfl : s'.fluorescence = (s'.radiative.filter (fun e => decide (e.2 > 0 ∧ e.1 ≠ total))).map
      (fun e => (e.1, ρ.rnd (e.2 / ρ.sum l 0))) := by
    have e1 : s'.fluorescence = fluorescenceRatiosR ρ s'.radiative := by rw [hs']
    rw [e1]
    unfold fluorescenceRatiosR
    exact SMap.foldl_condInsert (fun e : Str × ℝ => e.2 > 0 ∧ e.1 ≠ total) _ hrs
  have hfind : ∀ k, SMap.find? s'.fluorescence k
      = ((SMap.find? s'.radiative k).filter (fun v => decide (v > 0 ∧ k ≠ total))).map
          (fun v => ρ.rnd (v / ρ.sum l 0)) := by
    intro k
    rw [hfl, SMap.find?_mapVal (m := s'.radiative.filter _) (g := fun e => ρ.rnd (e.2 / ρ.sum l 0)),
      SMap.find?_filter hrs]
  refine ⟨?_, ?_, ?_⟩
  · intro k
    rw [hfind]
    cases hf : SMap.find? s'.radiative k with
    | none => simp
    | some w =>
      by_cases hc : w > 0 ∧ k ≠ total
      · have hd : decide (w > 0 ∧ k ≠ total) = true := decide_eq_true hc
        simp only [Option.filter_some, hd, if_true, Option.map_some, Option.some.injEq, exists_eq', true_iff]
        exact ⟨w, rfl, hc.1, hc.2⟩
      · have hd : decide (w > 0 ∧ k ≠ total) = false := decide_eq_false hc
        simp only [Option.filter_some, hd, Bool.false_eq_true, if_false, Option.map_none, reduceCtorEq,
          exists_false, false_iff, Option.some.injEq]
        rintro ⟨v, rfl, h1, h2⟩
        exact hc ⟨h1, h2⟩
  · intro k f v hf hr
    rw [hfind, hr] at hf
    by_cases hc : v > 0 ∧ k ≠ total
    · have hd : decide (v > 0 ∧ k ≠ total) = true := decide_eq_true hc
      simp only [Option.filter_some, hd, if_true, Option.map_some, Option.some.injEq] at hf
      rw [← hf, hsum]
      exact ⟨ρ.pos hu1 (div_pos hc.1 hT), ρ.share_close h0 l hlnn hS hn v (le_of_lt hc.1)⟩
    · have hd : decide (v > 0 ∧ k ≠ total) = false := decide_eq_false hc
      simp only [Option.filter_some, hd, Bool.false_eq_true, if_false, Option.map_none, reduceCtorEq] at hf
  · set q := (s'.radiative.filter (fun e => decide (e.2 > 0 ∧ e.1 ≠ total))).map Prod.snd with hq
    have hqs : q.sum = l.sum := by
      have := sum_filter_pos s'.radiative (fun e => decide (e.1 ≠ total)) hnn
      rw [hq, hl, ← this]
      congr 3
      funext e
      rw [Bool.decide_and]
    have hqn : ∀ a ∈ q, 0 ≤ a := by
      intro a ha
      obtain ⟨e, he, rfl⟩ := List.mem_map.1 ha
      exact hnn e (List.mem_of_mem_filter he)
    have e2 : s'.fluorescence.map Prod.snd = q.map (fun a => ρ.rnd (a / ρ.sum l 0)) := by
      rw [hfl, hq, List.map_map, List.map_map]
      rfl
    rw [e2]
    have := ρ.shares_close h0 l hlnn hS hn q hqn
    rwa [hqs, div_self (ne_of_gt hS), mul_one] at this

end Shell

/-! ## C186: the interpolation in a transmission table -/

namespace TransmissionTable

variable {u : ℝ}

/-- fisx_transmissiontable.cpp:209-245, `getTransmission`, computed with `double`. -/
noncomputable def getTransmissionR (ρ : Rounding u) (t : TransmissionTable ℝ) (e : ℝ) : ℝ :=
  let m := t.table
  if m.length < 1 then 1
  else
    let i2 := upperBound m e
    if i2 = m.length then (m.getD (i2 - 1) (0, 0)).2
    else if e ≤ (m.getD 0 (0, 0)).1 then (m.getD 0 (0, 0)).2
    else
      let p1 := m.getD (i2 - 1) (0, 0)
      let p2 := m.getD i2 (0, 0)
      let factor := ρ.rnd (ρ.rnd (e - p1.1) / ρ.rnd (p2.1 - p1.1))
      ρ.rnd (ρ.rnd (factor * p2.2) + ρ.rnd (ρ.rnd (1 - factor) * p1.2))

/-- The value between two neighbours of the table. -/
theorem getR_inside (ρ : Rounding u) (t : TransmissionTable ℝ) (pre post : SMap ℝ ℝ) (a b : ℝ × ℝ) (e : ℝ)
    (ht : t.table = pre ++ a :: b :: post) (hs : SMap.Sorted t.table) (h1 : a.1 ≤ e) (h2 : e < b.1) :
    (e = a.1 ∧ pre = [] ∧ getTransmissionR ρ t e = a.2) ∨
    getTransmissionR ρ t e =
      ρ.rnd (ρ.rnd (ρ.rnd (ρ.rnd (e - a.1) / ρ.rnd (b.1 - a.1)) * b.2)
        + ρ.rnd (ρ.rnd (1 - ρ.rnd (ρ.rnd (e - a.1) / ρ.rnd (b.1 - a.1))) * a.2)) := by
  have hub : upperBound t.table e = pre.length + 1 := by
    have := upperBound_split (pre ++ [a]) (b :: post) e (by
      intro p hp
      rcases List.mem_append.1 hp with hp | hp
      · rw [ht] at hs
        unfold SMap.Sorted at hs
        rw [List.pairwise_append] at hs
        exact le_trans (le_of_lt (hs.2.2 p hp a (by simp))) h1
      · simp at hp; subst hp; exact h1) (by simpa using h2)
    rw [ht]
    simpa using this
  unfold getTransmissionR
  have hlen : t.table.length = pre.length + post.length + 2 := by rw [ht]; simp; omega
  have e1 : ¬ t.table.length < 1 := by omega
  have e2 : ¬ pre.length + 1 = t.table.length := by omega
  simp only [hub, e1, if_false, e2]
  split
  · rename_i hle
    have hpre : pre = [] := by
      cases pre with
      | nil => rfl
      | cons p r =>
        exfalso
        rw [ht] at hle hs
        simp at hle
        have := (SMap.sorted_cons.1 hs).1 a (by simp)
        exact absurd (lt_of_lt_of_le this h1) (not_lt.2 hle)
    subst hpre
    rw [ht] at hle ⊢
    simp at hle ⊢
    exact Or.inl (le_antisymm hle h1)
  · have g1 : t.table.getD (pre.length + 1 - 1) (0, 0) = a := by rw [ht]; simp
    have g2 : t.table.getD (pre.length + 1) (0, 0) = b := by
      rw [ht, List.getD_eq_getElem?_getD, List.getElem?_append_right (by omega)]; simp
    rw [g1, g2]
    exact Or.inr rfl

/-- **C186** A tabulated energy gets its tabulated value, whatever the rounding, when that value is a number of the
machine. -/
theorem C186_exact (ρ : Rounding u) (t : TransmissionTable ℝ) (hs : SMap.Sorted t.table) (x y : ℝ)
    (h : (x, y) ∈ t.table) (hf : ρ.Fits y) : getTransmissionR ρ t x = y := by
  obtain ⟨pre, post, hsplit⟩ := List.append_of_mem h
  cases post with
  | nil =>
    have hub : upperBound t.table x = t.table.length := by
      have := upperBound_split (pre ++ [(x, y)]) [] x (by
        intro p hp
        rcases List.mem_append.1 hp with hp | hp
        · rw [hsplit] at hs
          unfold SMap.Sorted at hs
          rw [List.pairwise_append] at hs
          exact le_of_lt (hs.2.2 p hp (x, y) (by simp))
        · simp at hp; subst hp; exact le_refl _) (by simp)
      rw [hsplit]
      simpa using this
    unfold getTransmissionR
    have e1 : ¬ t.table.length < 1 := by rw [hsplit]; simp
    simp only [e1, if_false, hub, if_true]
    rw [hsplit]
    simp
  | cons b r =>
    have hlt : x < b.1 := by
      rw [hsplit] at hs
      unfold SMap.Sorted at hs
      rw [List.pairwise_append, List.pairwise_cons] at hs
      exact hs.2.1.1 b (by simp)
    rcases getR_inside ρ t pre r (x, y) b x hsplit hs (le_refl _) hlt with ⟨_, _, h⟩ | h
    · exact h
    · rw [h]
      have hf' : ρ.rnd y = y := hf
      simp [ρ.zero, ρ.one, hf']

/-- **C186** Outside of the table the first and the last value are returned, without arithmetic. -/
theorem C186_outside (ρ : Rounding u) (t : TransmissionTable ℝ) (hs : SMap.Sorted t.table) (x y e : ℝ)
    (h : (x, y) ∈ t.table) :
    ((∀ p ∈ t.table, x ≤ p.1) → e < x → getTransmissionR ρ t e = y) ∧
    ((∀ p ∈ t.table, p.1 ≤ x) → x ≤ e → getTransmissionR ρ t e = y) := by
  obtain ⟨pre, post, hsplit⟩ := List.append_of_mem h
  have e1 : ¬ t.table.length < 1 := by rw [hsplit]; simp
  constructor
  · intro hall he
    have hpre : pre = [] := by
      cases pre with
      | nil => rfl
      | cons p r =>
        exfalso
        have h1 := hall p (by rw [hsplit]; simp)
        rw [hsplit] at hs
        have h2 := (SMap.sorted_cons.1 hs).1 (x, y) (by simp)
        exact absurd h2 (not_lt.2 h1)
    subst hpre
    have hub : upperBound t.table e = 0 := by
      unfold upperBound
      rw [hsplit]
      simp [not_le.2 he]
    unfold getTransmissionR
    have e2 : ¬ 0 = t.table.length := by omega
    simp only [e1, if_false, hub, e2]
    rw [hsplit]
    simp [le_of_lt he]
  · intro hall he
    have hpost : post = [] := by
      cases post with
      | nil => rfl
      | cons p r =>
        exfalso
        have h1 := hall p (by rw [hsplit]; simp)
        rw [hsplit] at hs
        unfold SMap.Sorted at hs
        rw [List.pairwise_append, List.pairwise_cons] at hs
        exact absurd (hs.2.1.1 p (by simp)) (not_lt.2 h1)
    subst hpost
    have hub : upperBound t.table e = t.table.length := by
      have := upperBound_split (pre ++ [(x, y)]) [] e (by
        intro p hp
        exact le_trans (hall p (by rw [hsplit]; exact hp)) he) (by simp)
      rw [hsplit]
      simpa using this
    unfold getTransmissionR
    simp only [e1, if_false, hub, if_true]
    rw [hsplit]
    simp

set_option maxHeartbeats 1000000 in
/-- The arithmetic of the interpolation. -/
theorem interpolation (ρ : Rounding u) (h0 : 0 ≤ u) (h5 : u ≤ 1 / 5) (d w y1 y2 : ℝ) (hd : 0 ≤ d) (hdw : d ≤ w)
    (hw : 0 < w) (hy1 : 0 ≤ y1) (hy2 : 0 ≤ y2) :
    let f := ρ.rnd (ρ.rnd d / ρ.rnd w)
    let r := ρ.rnd (ρ.rnd (f * y2) + ρ.rnd (ρ.rnd (1 - f) * y1))
    (1 - u) ^ 3 * min y1 y2 ≤ r ∧ r ≤ (1 + u) ^ 3 * max y1 y2 ∧
      |r - (y1 + (y2 - y1) * (d / w))| ≤ 13 * u * max y1 y2 := by
  intro f r
  have hW : 0 < ρ.rnd w := ρ.pos (by linarith) hw
  have hD : 0 ≤ ρ.rnd d := ρ.nonneg hd
  have hq0 : 0 ≤ ρ.rnd d / ρ.rnd w := div_nonneg hD (le_of_lt hW)
  have hf0 : 0 ≤ f := ρ.nonneg hq0
  have hf1 : f ≤ 1 := ρ.le_one ((div_le_one hW).2 (ρ.mono hdw))
  set h := ρ.rnd (1 - f) with hh
  have hh0 : 0 ≤ h := ρ.nonneg (by linarith)
  have hh1 : h ≤ 1 := ρ.le_one (by linarith)
  have hhd : (1 - u) * (1 - f) ≤ h := ρ.ge_down (by linarith)
  have hhu : h ≤ (1 + u) * (1 - f) := ρ.le_up (by linarith)
  have hp0 : 0 ≤ f * y2 := mul_nonneg hf0 hy2
  have hq0' : 0 ≤ h * y1 := mul_nonneg hh0 hy1
  set p := ρ.rnd (f * y2) with hp
  set q := ρ.rnd (h * y1) with hq
  have hpd : (1 - u) * (f * y2) ≤ p := ρ.ge_down hp0
  have hpu : p ≤ (1 + u) * (f * y2) := ρ.le_up hp0
  have hqd : (1 - u) * (h * y1) ≤ q := ρ.ge_down hq0'
  have hqu : q ≤ (1 + u) * (h * y1) := ρ.le_up hq0'
  have hp00 : 0 ≤ p := ρ.nonneg hp0
  have hq00 : 0 ≤ q := ρ.nonneg hq0'
  have hrd : (1 - u) * (p + q) ≤ r := ρ.ge_down (by linarith)
  have hru : r ≤ (1 + u) * (p + q) := ρ.le_up (by linarith)
  set M := max y1 y2 with hM
  have hM1 : y1 ≤ M := le_max_left _ _
  have hM2 : y2 ≤ M := le_max_right _ _
  have hM0 : 0 ≤ M := le_trans hy1 hM1
  set m := min y1 y2 with hmd
  have hm1 : m ≤ y1 := min_le_left _ _
  have hm2 : m ≤ y2 := min_le_right _ _
  have hm0 : 0 ≤ m := le_min hy1 hy2
  have hu1 : 0 ≤ 1 - u := by linarith
  have sumU : f * y2 + h * y1 ≤ (1 + u) * M := by
    have a1 : f * y2 ≤ f * M := mul_le_mul_of_nonneg_left hM2 hf0
    have a2 : h * y1 ≤ h * M := mul_le_mul_of_nonneg_left hM1 hh0
    have a3 : f + h ≤ 1 + u := by nlinarith
    nlinarith
  have sumD : (1 - u) * m ≤ f * y2 + h * y1 := by
    have a1 : f * m ≤ f * y2 := mul_le_mul_of_nonneg_left hm2 hf0
    have a2 : h * m ≤ h * y1 := mul_le_mul_of_nonneg_left hm1 hh0
    have a3 : 1 - u ≤ f + h := by nlinarith
    nlinarith
  have pqU : p + q ≤ (1 + u) * ((1 + u) * M) := by
    have : p + q ≤ (1 + u) * (f * y2 + h * y1) := by linarith
    exact le_trans this (mul_le_mul_of_nonneg_left sumU (by linarith))
  have pqD : (1 - u) * ((1 - u) * m) ≤ p + q := by
    have : (1 - u) * (f * y2 + h * y1) ≤ p + q := by linarith
    exact le_trans (mul_le_mul_of_nonneg_left sumD hu1) this
  refine ⟨?_, ?_, ?_⟩
  · calc (1 - u) ^ 3 * m = (1 - u) * ((1 - u) * ((1 - u) * m)) := by ring
      _ ≤ (1 - u) * (p + q) := mul_le_mul_of_nonneg_left pqD hu1
      _ ≤ r := hrd
  · calc r ≤ (1 + u) * (p + q) := hru
      _ ≤ (1 + u) * ((1 + u) * ((1 + u) * M)) := mul_le_mul_of_nonneg_left pqU (by linarith)
      _ = (1 + u) ^ 3 * M := by ring
  · set g := d / w with hg
    have hg0 : 0 ≤ g := div_nonneg hd (le_of_lt hw)
    have hg1 : g ≤ 1 := (div_le_one hw).2 hdw
    have hgd : g * w = d := div_mul_cancel₀ _ (ne_of_gt hw)
    -- the factor
    have fu : f ≤ (1 + 4 * u) * g := by
      have k1 : f * ρ.rnd w ≤ (1 + u) * ρ.rnd d := by
        have := mul_le_mul_of_nonneg_right (ρ.le_up hq0) (le_of_lt hW)
        rwa [mul_assoc, div_mul_cancel₀ _ (ne_of_gt hW)] at this
      have k2 : (1 - u) * w ≤ ρ.rnd w := ρ.ge_down (le_of_lt hw)
      have k3 : ρ.rnd d ≤ (1 + u) * d := ρ.le_up hd
      have k4 : f * ((1 - u) * w) ≤ (1 + u) * ((1 + u) * (g * w)) := by
        rw [hgd]
        calc f * ((1 - u) * w) ≤ f * ρ.rnd w := mul_le_mul_of_nonneg_left k2 hf0
          _ ≤ (1 + u) * ρ.rnd d := k1
          _ ≤ (1 + u) * ((1 + u) * d) := mul_le_mul_of_nonneg_left k3 (by linarith)
      have k5 : f * (1 - u) ≤ (1 + u) * ((1 + u) * g) := by
        apply le_of_mul_le_mul_right _ hw
        calc f * (1 - u) * w = f * ((1 - u) * w) := by ring
          _ ≤ _ := k4
          _ = (1 + u) * ((1 + u) * g) * w := by ring
      have k6 : (1 + u) * ((1 + u) * g) ≤ (1 + 4 * u) * g * (1 - u) := by
        have : 0 ≤ u * g * (1 - 5 * u) := mul_nonneg (mul_nonneg h0 hg0) (by linarith)
        nlinarith
      exact le_of_mul_le_mul_right (le_trans k5 k6) (by linarith)
    have fd : (1 - 4 * u) * g ≤ f := by
      have k1 : (1 - u) * ρ.rnd d ≤ f * ρ.rnd w := by
        have := mul_le_mul_of_nonneg_right (ρ.ge_down hq0) (le_of_lt hW)
        rwa [mul_assoc, div_mul_cancel₀ _ (ne_of_gt hW)] at this
      have k2 : ρ.rnd w ≤ (1 + u) * w := ρ.le_up (le_of_lt hw)
      have k3 : (1 - u) * d ≤ ρ.rnd d := ρ.ge_down hd
      have k4 : (1 - u) * ((1 - u) * (g * w)) ≤ f * ((1 + u) * w) := by
        rw [hgd]
        calc (1 - u) * ((1 - u) * d) ≤ (1 - u) * ρ.rnd d := mul_le_mul_of_nonneg_left k3 hu1
          _ ≤ f * ρ.rnd w := k1
          _ ≤ f * ((1 + u) * w) := mul_le_mul_of_nonneg_left k2 hf0
      have k5 : (1 - u) * ((1 - u) * g) ≤ f * (1 + u) := by
        apply le_of_mul_le_mul_right _ hw
        calc (1 - u) * ((1 - u) * g) * w = (1 - u) * ((1 - u) * (g * w)) := by ring
          _ ≤ _ := k4
          _ = f * (1 + u) * w := by ring
      have k6 : (1 - 4 * u) * g * (1 + u) ≤ (1 - u) * ((1 - u) * g) := by
        have : 0 ≤ u * g * (1 + 5 * u) := mul_nonneg (mul_nonneg h0 hg0) (by linarith)
        nlinarith
      exact le_of_mul_le_mul_right (le_trans k6 k5) (by linarith)
    have hug : u * g ≤ u := by nlinarith
    have huf : u * f ≤ u := by nlinarith
    have huh : u * h ≤ u := by nlinarith
    have huf0 : 0 ≤ u * f := mul_nonneg h0 hf0
    -- first product
    have c1 : p - g * y2 ≤ 5 * u * M := by
      have a : p - g * y2 ≤ (f - g + u * f) * y2 := by linarith
      have b : f - g + u * f ≤ 5 * u := by linarith
      calc p - g * y2 ≤ (f - g + u * f) * y2 := a
        _ ≤ 5 * u * y2 := mul_le_mul_of_nonneg_right b hy2
        _ ≤ 5 * u * M := mul_le_mul_of_nonneg_left hM2 (by linarith)
    have c2 : g * y2 - p ≤ 5 * u * M := by
      have a : g * y2 - p ≤ (g - f + u * f) * y2 := by linarith
      have b : g - f + u * f ≤ 5 * u := by linarith
      calc g * y2 - p ≤ (g - f + u * f) * y2 := a
        _ ≤ 5 * u * y2 := mul_le_mul_of_nonneg_right b hy2
        _ ≤ 5 * u * M := mul_le_mul_of_nonneg_left hM2 (by linarith)
    -- second product
    have c3 : q - (1 - g) * y1 ≤ 6 * u * M := by
      have a : q - (1 - g) * y1 ≤ (h - (1 - g) + u * h) * y1 := by linarith
      have b : h - (1 - g) + u * h ≤ 6 * u := by linarith
      calc q - (1 - g) * y1 ≤ (h - (1 - g) + u * h) * y1 := a
        _ ≤ 6 * u * y1 := mul_le_mul_of_nonneg_right b hy1
        _ ≤ 6 * u * M := mul_le_mul_of_nonneg_left hM1 (by linarith)
    have c4 : (1 - g) * y1 - q ≤ 6 * u * M := by
      have a : (1 - g) * y1 - q ≤ ((1 - g) - h + u * h) * y1 := by linarith
      have b : (1 - g) - h + u * h ≤ 6 * u := by linarith
      calc (1 - g) * y1 - q ≤ ((1 - g) - h + u * h) * y1 := a
        _ ≤ 6 * u * y1 := mul_le_mul_of_nonneg_right b hy1
        _ ≤ 6 * u * M := mul_le_mul_of_nonneg_left hM1 (by linarith)
    have c5 : u * (p + q) ≤ 2 * u * M := by
      have k : (1 + u) * (1 + u) ≤ 2 := by nlinarith
      have a : p + q ≤ 2 * M := by
        calc p + q ≤ (1 + u) * ((1 + u) * M) := pqU
          _ = ((1 + u) * (1 + u)) * M := by ring
          _ ≤ 2 * M := mul_le_mul_of_nonneg_right k hM0
      calc u * (p + q) ≤ u * (2 * M) := mul_le_mul_of_nonneg_left a h0
        _ = 2 * u * M := by ring
    have e : y1 + (y2 - y1) * g = g * y2 + (1 - g) * y1 := by ring
    rw [e, abs_le]
    constructor <;> linarith

/-- **C186** Between two neighbouring tabulated energies the value that `double` arithmetic gives lies between the two
tabulated values up to three roundings, so it is never negative, and differs from the straight line of C03 by at most
`13 u` times the larger of the two. -/
theorem C186_between (ρ : Rounding u) (h0 : 0 ≤ u) (h5 : u ≤ 1 / 5) (t : TransmissionTable ℝ)
    (hs : SMap.Sorted t.table) (pre post : SMap ℝ ℝ) (x1 y1 x2 y2 e : ℝ)
    (ht : t.table = pre ++ (x1, y1) :: (x2, y2) :: post) (h1 : x1 ≤ e) (h2 : e ≤ x2) (hy1 : 0 ≤ y1) (hy2 : 0 ≤ y2)
    (hf1 : ρ.Fits y1) (hf2 : ρ.Fits y2) :
    (1 - u) ^ 3 * min y1 y2 ≤ getTransmissionR ρ t e ∧ getTransmissionR ρ t e ≤ (1 + u) ^ 3 * max y1 y2 ∧
    |getTransmissionR ρ t e - (y1 + (y2 - y1) * ((e - x1) / (x2 - x1)))| ≤ 13 * u * max y1 y2 := by
  have hx : x1 < x2 := by
    rw [ht] at hs
    unfold SMap.Sorted at hs
    rw [List.pairwise_append, List.pairwise_cons] at hs
    exact hs.2.1.1 (x2, y2) (by simp)
  have hw : 0 < x2 - x1 := sub_pos.2 hx
  have hM1 : y1 ≤ max y1 y2 := le_max_left _ _
  have hM2 : y2 ≤ max y1 y2 := le_max_right _ _
  have hm1 : min y1 y2 ≤ y1 := min_le_left _ _
  have hm2 : min y1 y2 ≤ y2 := min_le_right _ _
  have hm0 : 0 ≤ min y1 y2 := le_min hy1 hy2
  have hM0 : 0 ≤ max y1 y2 := le_trans hy1 hM1
  have hpd : (1 - u) ^ 3 ≤ 1 := pow_le_one₀ (by linarith) (by linarith)
  have hpu : 1 ≤ (1 + u) ^ 3 := one_le_pow₀ (by linarith)
  have hends : ∀ y, min y1 y2 ≤ y → y ≤ max y1 y2 →
      (1 - u) ^ 3 * min y1 y2 ≤ y ∧ y ≤ (1 + u) ^ 3 * max y1 y2 := fun y ha hb =>
    ⟨by nlinarith, by nlinarith⟩
  have hz : 0 ≤ 13 * u * max y1 y2 := by positivity
  rcases lt_or_eq_of_le h2 with hlt | heq
  · rcases getR_inside ρ t pre post (x1, y1) (x2, y2) e ht hs h1 hlt with ⟨he, _, h⟩ | h
    · rw [h]
      simp only at he ⊢
      refine ⟨(hends y1 hm1 hM1).1, (hends y1 hm1 hM1).2, ?_⟩
      rw [he]
      simpa using hz
    · rw [h]
      exact interpolation ρ h0 h5 (e - x1) (x2 - x1) y1 y2 (by linarith) (by linarith) hw hy1 hy2
  · subst heq
    rw [C186_exact ρ t hs e y2 (by rw [ht]; simp) hf2, div_self (ne_of_gt hw)]
    refine ⟨(hends y2 hm2 hM2).1, (hends y2 hm2 hM2).2, ?_⟩
    have e0 : y2 - (y1 + (y2 - y1) * 1) = 0 := by ring
    rw [e0, abs_zero]
    exact hz

end TransmissionTable

/-! ## The hypotheses are met

By the arithmetic of `double` with up to a quadrillion components, and by a coarse arithmetic in which the error shows:
with two significant bits a third is stored as a quarter. -/

/-- The unit roundoff of `double` is small enough for every list a computer can hold. -/
example (n : ℕ) (h : n < 10 ^ 15) : (0 : ℝ) ≤ 1 / 2 * (1 / 2) ^ 52 ∧
    ((n : ℝ) + 1) * (1 / 2 * (1 / 2) ^ 52) ≤ 1 / 2 ∧ (1 : ℝ) / 2 * (1 / 2) ^ 52 ≤ 1 / 5 := by
  have : (n : ℝ) + 1 ≤ 10 ^ 15 := by exact_mod_cast h
  refine ⟨by norm_num, ?_, by norm_num⟩
  calc ((n : ℝ) + 1) * (1 / 2 * (1 / 2) ^ 52) ≤ 10 ^ 15 * (1 / 2 * (1 / 2) ^ 52) :=
        mul_le_mul_of_nonneg_right this (by norm_num)
    _ ≤ 1 / 2 := by norm_num

/-- A composition of water, with the arithmetic of `double`. -/
example (m : Material ℝ) :
    let c := (Material.setCompositionR Rounding.double m ["H", "O"] [2, 16]).2.composition
    (∃ f, c.find? "O" = some f ∧ 0 < f ∧ |f - 16 / 18| ≤ 6 * (1 / 2) ^ 53) ∧
    |(c.map Prod.snd).sum - 1| ≤ 6 * (1 / 2) ^ 53 := by
  intro c
  obtain ⟨h1, _, h3⟩ := Material.C183_fractions Rounding.double (by norm_num) m ["H", "O"] [2, 16] rfl (by simp)
    (by simp) (by simp) (by norm_num)
  obtain ⟨f, hf, hp, _, hc⟩ := h1 1 "O" 16 rfl rfl
  norm_num at hc h3 ⊢
  exact ⟨⟨f, hf, hp, le_trans hc (by norm_num)⟩, le_trans h3 (by norm_num)⟩

/-- A beam of two rays, with the arithmetic of `double`. -/
example (sort : List (Ray ℝ) → List (Ray ℝ)) (hsort : Beam.IsSort sort) (b : Beam ℝ) :
    |((Beam.setBeamR Rounding.double sort b [20, 10] [1, 2] [] []).2.rays.map Ray.weight).sum - 1| ≤ 6 * (1 / 2) ^ 53 := by
  obtain ⟨_, _, h, _⟩ := Beam.C184_normalised Rounding.double (by norm_num) sort hsort b [20, 10] [1, 2] [] []
    (Or.inr (by simp)) (Or.inl (by simp)) (Or.inl (by simp)) (by simp) (by norm_num)
  have hW : 0 < ((List.range ([20, 10] : List ℝ).length).map (Beam.expected ([1, 2] : List ℝ) 1)).sum := by
    simp [List.range_succ, Beam.expected]
    norm_num
  refine le_trans (h hW).2 ?_
  norm_num

/-- The ratios of a K shell, with the arithmetic of `double`. -/
example (s : Shell ℝ) (hs : s.name = "K".toList) :
    ∃ s', Shell.setRadiativeR Rounding.double s ["KL3".toList, "KM3".toList] [2, 1] = (.ok (), s') ∧
      |(s'.fluorescence.map Prod.snd).sum - 1| ≤ 6 * (1 / 2) ^ 53 := by
  have hloop : Shell.radiativeLoop s.name ["KL3".toList, "KM3".toList] ([2, 1] : List ℝ) 0 []
      = (.ok (), [("KL3".toList, 2), ("KM3".toList, 1)]) := by
    rw [hs]
    have k1 : Shell.radiativeKey "K".toList "KL3".toList = some "KL3".toList := by decide +kernel
    have k2 : Shell.radiativeKey "K".toList "KM3".toList = some "KM3".toList := by decide +kernel
    have c1 : ¬ ("KM3".toList < "KL3".toList) := by decide +kernel
    have c2 : ¬ ("KM3".toList = "KL3".toList) := by decide +kernel
    generalize "KL3".toList = a at *
    generalize "KM3".toList = b at *
    generalize "K".toList = n at *
    have c4 : ¬ a = b := fun h => c2 h.symm
    simp [Shell.radiativeLoop, k1, k2, vget, SMap.insert, c1, c4]
  obtain ⟨s', hok, hr⟩ : ∃ s', Shell.setRadiativeR Rounding.double s ["KL3".toList, "KM3".toList] [2, 1] = (.ok (), s') ∧
      s'.radiative = [("KL3".toList, 2), ("KM3".toList, 1)] := by
    unfold Shell.setRadiativeR
    rw [hloop]
    exact ⟨_, rfl, rfl⟩
  refine ⟨s', hok, ?_⟩
  have hne1 : ("KL3".toList) ≠ Shell.total := by decide +kernel
  have hne2 : ("KM3".toList) ≠ Shell.total := by decide +kernel
  have hflt : (([("KL3".toList, 2), ("KM3".toList, 1)] : SMap Str ℝ).filter (fun e => e.1 ≠ Shell.total)).length = 2 := by
    rw [List.filter_cons_of_pos (by simpa using hne1), List.filter_cons_of_pos (by simpa using hne2)]
    rfl
  have := (Shell.C185_ratios Rounding.double (by norm_num) hok (by simp)
    ⟨"KL3".toList, 2, by rw [hr]; simp, hne1, by norm_num⟩ (by rw [hr, hflt]; norm_num)).2.2
  rw [hr, hflt] at this
  refine le_trans this ?_
  norm_num

/-- A table from nothing to full transmission, with the arithmetic of `double`. -/
example (e : ℝ) (h1 : 1 ≤ e) (h2 : e ≤ 3) :
    let t : TransmissionTable ℝ := { name := "", comment := "", table := [(1, 0), (3, 1)] }
    0 ≤ TransmissionTable.getTransmissionR Rounding.double t e ∧
    |TransmissionTable.getTransmissionR Rounding.double t e - (e - 1) / 2| ≤ 13 * (1 / 2) ^ 53 := by
  intro t
  obtain ⟨k1, _, k3⟩ := TransmissionTable.C186_between Rounding.double (by norm_num) (by norm_num) t
    (by simp [t, SMap.Sorted]) [] [] 1 0 3 1 e rfl h1 h2 (le_refl _) zero_le_one Rounding.double.zero Rounding.double.one
  rw [min_eq_left zero_le_one, mul_zero] at k1
  refine ⟨k1, ?_⟩
  rw [max_eq_right zero_le_one] at k3
  have e1 : (0 : ℝ) + (1 - 0) * ((e - 1) / (3 - 1)) = (e - 1) / 2 := by norm_num
  rw [e1] at k3
  refine le_trans k3 ?_
  norm_num

/-- A third is not a `double`. -/
theorem third_not_double : ¬ Rounding.double.Fits (1 / 3) := by
  intro h
  have hl : Int.log 2 (1 / 3 : ℝ) = -2 := by
    have h3 : (0 : ℝ) < 1 / 3 := by norm_num
    apply le_antisymm
    · have := (Int.lt_zpow_iff_log_lt (R := ℝ) (b := 2) (by norm_num) h3 (x := -1)).1 (by norm_num)
      omega
    · exact (Int.zpow_le_iff_le_log (R := ℝ) (b := 2) (by norm_num) h3).1 (by norm_num)
  have h' : Rounding.binRnd 52 Rounding.nearestEven (1 / 3) = 1 / 3 := h
  unfold Rounding.binRnd Rounding.posRnd at h'
  rw [if_pos (by norm_num)] at h'
  have hu : Rounding.ulp 52 (1 / 3) = 1 / 2 ^ 54 := by
    unfold Rounding.ulp
    rw [hl]
    norm_num
  rw [hu] at h'
  generalize Rounding.nearestEven (1 / 3 / (1 / 2 ^ 54)) = n at h'
  have h2 : (3 * n : ℝ) = 2 ^ 54 := by
    field_simp at h'
    linarith
  have h3 : 3 * n = 2 ^ 54 := by exact_mod_cast h2
  omega

/-- **C183** That the fractions add up to exactly one, as in C01, is not true of `double`: a mixture of three equal
parts is stored with three equal fractions, and no `double` is a third. -/
theorem C183_exactly_one_violated (m : Material ℝ) :
    (Material.setCompositionR Rounding.double m ["A", "B", "C"] [1, 1, 1]).1 = .ok () ∧
    (((Material.setCompositionR Rounding.double m ["A", "B", "C"] [1, 1, 1]).2.composition).map Prod.snd).sum ≠ 1 := by
  have hok := Material.setCompositionR_ok Rounding.double m ["A", "B", "C"] [1, 1, 1] rfl (by simp)
  rw [hok]
  refine ⟨rfl, ?_⟩
  set T := Rounding.double.sum [1, 1, 1] 0
  have ht := SMap.ofList_total (K := ℝ) ((["A", "B", "C"].zip [1, 1, 1]).map
    (fun e => (e.1, Rounding.double.rnd (e.2 / T)))) (by simp)
  unfold SMap.total at ht
  simp only at ht ⊢
  rw [ht]
  intro h
  have h3 : Rounding.double.rnd (1 / T) = 1 / 3 := by
    generalize Rounding.double.rnd = g at h ⊢
    simp only [List.zip_cons_cons, List.zip_nil_right, List.map_cons, List.map_nil, List.sum_cons, List.sum_nil,
      add_zero] at h
    linarith
  apply third_not_double
  unfold Rounding.Fits
  rw [← h3]
  exact Rounding.double.idem _

theorem coarse_third : Rounding.coarse.rnd (1 / 3) = 1 / 4 := by
  have hl : Int.log 2 (1 / 3 : ℝ) = -2 := by
    have h3 : (0 : ℝ) < 1 / 3 := by norm_num
    apply le_antisymm
    · have := (Int.lt_zpow_iff_log_lt (R := ℝ) (b := 2) (by norm_num) h3 (x := -1)).1 (by norm_num)
      omega
    · exact (Int.zpow_le_iff_le_log (R := ℝ) (b := 2) (by norm_num) h3).1 (by norm_num)
  show Rounding.binRnd 1 (fun y => ⌊y⌋) (1 / 3) = 1 / 4
  unfold Rounding.binRnd Rounding.posRnd Rounding.ulp
  rw [if_pos (by norm_num), hl]
  norm_num

end Fisx
