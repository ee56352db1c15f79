import Verif.RoundingProps
import Verif.Layer

/-!
# Transmissions with rounding (C187)

The transmission of a layer and of a list of filters, computed with a rounding after every operation.
-/

set_option linter.unusedSectionVars false

namespace Fisx
namespace Rounding

variable {u : ℝ} (ρ : Rounding u)

/-- What is asked of `std::exp`: never negative, at most one at and below zero, and it keeps the order. It is not asked to
be correctly rounded. -/
structure ExpOk (ex : ℝ → ℝ) : Prop where
  nonneg : ∀ x, 0 ≤ ex x
  le_one : ∀ x, x ≤ 0 → ex x ≤ 1
  mono : Monotone ex

/-- fisx_layer.cpp:130-145: the mass thickness along the path, `s` is the sine of the angle (`none` for 90 degrees). -/
noncomputable def path (density thickness : ℝ) : Option ℝ → ℝ
  | none => ρ.rnd (density * thickness)
  | some s => ρ.rnd (ρ.rnd (density * thickness) / s)

/-- fisx_layer.cpp:115-153, `Layer::getTransmission`, with the total coefficient `mu` and the sine `s` of the angle (`none`
for 90 degrees), every operation rounded. -/
noncomputable def transmission (ex : ℝ → ℝ) (density thickness funny : ℝ) (s : Option ℝ) (mu : ℝ) : Outcome ℝ :=
  if ρ.path density thickness s ≤ 0 then .throw .runtimeError
  else .ok (ρ.rnd (ρ.rnd (1 - funny) + ρ.rnd (funny * ex (-ρ.rnd (ρ.path density thickness s * mu)))))

/-- Without rounding this is the transmission of the module Layer, for the sine of the angle used there (not 0). -/
theorem transmission_exact (l : Layer ℝ) (mu angle : ℝ) (s : Option ℝ) (h90 : s = none ↔ angle = 90)
    (hs : ∀ x, s = some x → x ≠ 0 ∧ x = if angle < 0 then Real.sin (-angle * Real.pi / 180) else Real.sin (angle * Real.pi / 180)) :
    l.getTransmission (.ok mu) angle =
      (exact.transmission Real.exp l.density l.thickness l.funnyFactor s mu).bind (fun v => .ok (.fin v)) := by
  unfold Layer.getTransmission transmission
  rw [Outcome.ok_bind]
  have hd : l.massThickness angle = .fin (exact.path l.density l.thickness s) := by
    unfold Layer.massThickness
    cases s with
    | none => rw [if_pos (h90.1 rfl)]; rfl
    | some x =>
      obtain ⟨h0, h1⟩ := hs x rfl
      rw [if_neg (fun h => by cases h90.2 h)]
      simp only
      rw [← h1, if_neg h0]
      rfl
  rw [hd]
  by_cases h : exact.path l.density l.thickness s ≤ 0
  · simp [Layer.nonPositive, h]
    rfl
  · simp [Layer.nonPositive, h, Layer.transmissionOf]
    rfl

/-- fisx_multilayer.cpp:99-116: the weight of a ray behind the filters and the user filters, one multiplication for each. -/
noncomputable def behindFilters (w : ℝ) : List ℝ → ℝ
  | [] => w
  | t :: ts => behindFilters (ρ.rnd (w * t)) ts

theorem transmission_value {ex : ℝ → ℝ} {density thickness funny mu : ℝ} {s : Option ℝ} {v : ℝ}
    (h : ρ.transmission ex density thickness funny s mu = .ok v) :
    ∃ t, 0 < t ∧ v = ρ.rnd (ρ.rnd (1 - funny) + ρ.rnd (funny * ex (-ρ.rnd (t * mu)))) := by
  unfold transmission at h
  split at h
  · cases h
  · rename_i ht
    cases h
    exact ⟨_, not_le.1 ht, rfl⟩

/-- **C187** With any rounding (of relative error below one), a layer is refused with the same exception as without rounding, and
exactly when its mass thickness, seen under an angle with a positive sine, is not positive. -/
theorem C187_refused (hu : u < 1) (ex : ℝ → ℝ) (density thickness funny mu : ℝ) (s : Option ℝ) (hs : ∀ x, s = some x → 0 < x) :
    (density * thickness ≤ 0 → ρ.transmission ex density thickness funny s mu = .throw .runtimeError) ∧
    (0 < density * thickness → ∃ v, ρ.transmission ex density thickness funny s mu = .ok v) := by
  unfold transmission
  constructor
  · intro h
    have h1 : ρ.rnd (density * thickness) ≤ 0 := ρ.zero ▸ ρ.mono h
    rw [if_pos]
    cases s with
    | none => exact h1
    | some x => exact ρ.zero ▸ ρ.mono (div_nonpos_of_nonpos_of_nonneg h1 (hs x rfl).le)
  · intro h
    have h1 : 0 < ρ.rnd (density * thickness) := ρ.pos hu h
    rw [if_neg]
    · exact ⟨_, rfl⟩
    rw [not_le]
    cases s with
    | none => exact h1
    | some x => exact ρ.pos hu (div_pos h1 (hs x rfl))

/-- **C187** With any rounding, the transmission of a layer without holes (funny factor 1) is not negative and at most
one. -/
theorem C187_layer {ex : ℝ → ℝ} (hex : ExpOk ex) {density thickness mu : ℝ} {s : Option ℝ} {v : ℝ} (hmu : 0 ≤ mu)
    (h : ρ.transmission ex density thickness 1 s mu = .ok v) : 0 ≤ v ∧ v ≤ 1 := by
  obtain ⟨t, ht, rfl⟩ := ρ.transmission_value h
  have hx : -ρ.rnd (t * mu) ≤ 0 := neg_nonpos.2 (ρ.nonneg (mul_nonneg ht.le hmu))
  rw [sub_self, ρ.zero, zero_add, one_mul]
  exact ⟨ρ.nonneg (ρ.nonneg (hex.nonneg _)), ρ.le_one (ρ.le_one (hex.le_one _ hx))⟩

/-- **C187** With any rounding, no transmission is negative. -/
theorem C187_not_negative {ex : ℝ → ℝ} (hex : ExpOk ex) {density thickness funny mu : ℝ} {s : Option ℝ} {v : ℝ}
    (h0 : 0 ≤ funny) (h1 : funny ≤ 1)
    (h : ρ.transmission ex density thickness funny s mu = .ok v) : 0 ≤ v := by
  obtain ⟨t, ht, rfl⟩ := ρ.transmission_value h
  exact ρ.nonneg (add_nonneg (ρ.nonneg (by linarith)) (ρ.nonneg (mul_nonneg h0 (hex.nonneg _))))

/-- **C187** With any rounding, a thicker layer, or one with a larger coefficient, never transmits more. -/
theorem C187_thicker {ex : ℝ → ℝ} (hex : ExpOk ex) {density thickness thickness' funny mu mu' : ℝ} {s : Option ℝ}
    {v v' : ℝ} (hs : ∀ x, s = some x → 0 < x) (hd : 0 ≤ density) (ht : thickness ≤ thickness') (hmu : 0 ≤ mu)
    (hmm : mu ≤ mu') (h0 : 0 ≤ funny) (h : ρ.transmission ex density thickness funny s mu = .ok v)
    (h' : ρ.transmission ex density thickness' funny s mu' = .ok v') : v' ≤ v := by
  unfold transmission at h h'
  split at h
  · cases h
  rename_i p
  split at h'
  · cases h'
  rename_i p'
  cases h
  cases h'
  have hle : ρ.path density thickness s ≤ ρ.path density thickness' s := by
    have hb : ρ.rnd (density * thickness) ≤ ρ.rnd (density * thickness') :=
      ρ.mono (mul_le_mul_of_nonneg_left ht hd)
    cases s with
    | none => exact hb
    | some x => exact ρ.mono (div_le_div_of_nonneg_right hb (hs x rfl).le)
  refine ρ.mono (add_le_add le_rfl (ρ.mono (mul_le_mul_of_nonneg_left (hex.mono (neg_le_neg (ρ.mono ?_))) h0)))
  exact mul_le_mul hle hmm hmu (not_le.1 p').le

/-- **C187** With any rounding, filters that transmit between nothing and all of the beam never make a weight negative and
never make it larger. -/
theorem C187_filters : ∀ (ts : List ℝ) (w : ℝ), 0 ≤ w → ρ.Fits w → (∀ t ∈ ts, 0 ≤ t ∧ t ≤ 1) →
    0 ≤ ρ.behindFilters w ts ∧ ρ.behindFilters w ts ≤ w
  | [], w, hw, _, _ => ⟨hw, le_rfl⟩
  | t :: ts, w, hw, hf, h => by
    obtain ⟨t0, t1⟩ := h t List.mem_cons_self
    have hle : ρ.rnd (w * t) ≤ w := by
      have := ρ.mono (mul_le_of_le_one_right hw t1)
      rwa [show ρ.rnd w = w from hf] at this
    obtain ⟨a, b⟩ := C187_filters ts (ρ.rnd (w * t)) (ρ.nonneg (mul_nonneg hw t0)) (ρ.idem _)
      (fun x hx => h x (List.mem_cons_of_mem _ hx))
    exact ⟨a, b.trans hle⟩

/-- **C187** With any rounding, the weight behind n filters is the product of the weight and the transmissions up to n
roundings. -/
theorem C187_filters_error (hu0 : 0 ≤ u) (hu : u ≤ 1) : ∀ (ts : List ℝ) (w : ℝ), 0 ≤ w → (∀ t ∈ ts, 0 ≤ t) →
    (1 - u) ^ ts.length * (w * ts.prod) ≤ ρ.behindFilters w ts ∧
    ρ.behindFilters w ts ≤ (1 + u) ^ ts.length * (w * ts.prod)
  | [], w, _, _ => by simp [behindFilters]
  | t :: ts, w, hw, h => by
    have t0 := h t List.mem_cons_self
    have hwt := mul_nonneg hw t0
    have hr := ρ.nonneg hwt
    have hp : 0 ≤ ts.prod := List.prod_nonneg (fun x hx => h x (List.mem_cons_of_mem _ hx))
    obtain ⟨a, b⟩ := C187_filters_error hu0 hu ts (ρ.rnd (w * t)) hr (fun x hx => h x (List.mem_cons_of_mem _ hx))
    have l := mul_le_mul_of_nonneg_right (ρ.ge_down hwt) hp
    have g := mul_le_mul_of_nonneg_right (ρ.le_up hwt) hp
    have p1 : (0 : ℝ) ≤ (1 - u) ^ ts.length := pow_nonneg (by linarith) _
    have p2 : (0 : ℝ) ≤ (1 + u) ^ ts.length := pow_nonneg (by linarith) _
    simp only [behindFilters, List.length_cons, List.prod_cons, pow_succ]
    constructor
    · refine le_trans (le_of_eq ?_) ((mul_le_mul_of_nonneg_left l p1).trans a)
      ring
    · refine (b.trans (mul_le_mul_of_nonneg_left g p2)).trans (le_of_eq ?_)
      ring

/-! ## Accuracy -/

/-- Rounding an attenuation three times. -/
theorem exp_roundings (hu0 : 0 ≤ u) (hu : u ≤ 1 / 16) {x x' : ℝ} (hx : 0 ≤ x) (hl : (1 - u) ^ 3 * x ≤ x')
    (hg : x' ≤ (1 + u) ^ 3 * x) : |Real.exp (-x') - Real.exp (-x)| ≤ 4 * u := by
  have small : ∀ y : ℝ, y * Real.exp (-y) ≤ 1 := by
    intro y
    have h1 := Real.add_one_le_exp y
    have h2 : Real.exp y * Real.exp (-y) = 1 := by rw [← Real.exp_add]; simp
    have h3 := Real.exp_pos (-y)
    nlinarith
  -- exp(-a) - exp(-b) <= (b - a) exp(-a)
  have diff : ∀ a b : ℝ, Real.exp (-a) - Real.exp (-b) ≤ (b - a) * Real.exp (-a) := by
    intro a b
    have h1 := Real.add_one_le_exp (-(b - a))
    have h2 : Real.exp (-b) = Real.exp (-a) * Real.exp (-(b - a)) := by rw [← Real.exp_add]; congr 1; ring
    have h3 := mul_le_mul_of_nonneg_left h1 (Real.exp_pos (-a)).le
    rw [← h2] at h3
    linarith
  have c0 : (13 / 16 : ℝ) ≤ (1 - u) ^ 3 := by nlinarith [mul_nonneg hu0 hu0, mul_nonneg hu0 (mul_nonneg hu0 hu0)]
  have c1 : 1 - (1 - u) ^ 3 ≤ 3 * u := by nlinarith [mul_nonneg hu0 hu0, mul_nonneg hu0 (mul_nonneg hu0 hu0)]
  have c2 : (1 + u) ^ 3 - 1 ≤ 4 * u := by nlinarith [mul_nonneg hu0 hu0, mul_nonneg hu0 (mul_nonneg hu0 hu0)]
  have hX := Real.exp_pos (-x)
  rw [abs_le]
  constructor
  · have h1 : Real.exp (-((1 + u) ^ 3 * x)) ≤ Real.exp (-x') := Real.exp_le_exp.2 (by linarith)
    have h2 := diff x ((1 + u) ^ 3 * x)
    have h3 := small x
    have h4 : ((1 + u) ^ 3 * x - x) * Real.exp (-x) = ((1 + u) ^ 3 - 1) * (x * Real.exp (-x)) := by ring
    have h5 : 0 ≤ x * Real.exp (-x) := mul_nonneg hx hX.le
    have h6 := mul_le_mul_of_nonneg_right c2 h5
    nlinarith
  · set c := (1 - u) ^ 3 with hc
    have h1 : Real.exp (-x') ≤ Real.exp (-(c * x)) := Real.exp_le_exp.2 (by linarith)
    have h2 := diff (c * x) x
    have h3 := small (c * x)
    have h5 : 0 ≤ x * Real.exp (-(c * x)) := mul_nonneg hx (Real.exp_pos _).le
    have h4 : (x - c * x) * Real.exp (-(c * x)) = (1 - c) * (x * Real.exp (-(c * x))) := by ring
    have h6 := mul_le_mul_of_nonneg_right c1 h5
    have h7 : x * Real.exp (-(c * x)) ≤ 16 / 13 := by nlinarith
    nlinarith

/-- **C187** With any rounding whose unit roundoff is at most 1/16 and an exponential function with relative error `ε`, the
transmission differs from the exact one at most by 9 u + ε. -/
theorem C187_accuracy (hu0 : 0 ≤ u) (hu : u ≤ 1 / 16) {ex : ℝ → ℝ} {ε : ℝ} (hε : ε ≤ 1)
    (hexp : ∀ x, |ex x - Real.exp x| ≤ ε * Real.exp x)
    {density thickness funny mu : ℝ} {s : Option ℝ} {v : ℝ} (hs : ∀ x, s = some x → 0 < x) (hd : 0 ≤ density)
    (ht : 0 ≤ thickness) (hmu : 0 ≤ mu) (h0 : 0 ≤ funny) (h1 : funny ≤ 1)
    (h : ρ.transmission ex density thickness funny s mu = .ok v) :
    |v - ((1 - funny) + funny * Real.exp (-(density * thickness / s.getD 1 * mu)))| ≤ 9 * u + ε := by
  unfold transmission at h
  split at h
  · cases h
  rename_i hp
  cases h
  have hdt := mul_nonneg hd ht
  have u1 : 0 ≤ 1 - u := by linarith
  have hs0 : 0 < s.getD 1 := by
    cases s with
    | none => exact one_pos
    | some x => exact hs x rfl
  have q0 : 0 ≤ density * thickness / s.getD 1 := div_nonneg hdt hs0.le
  have hpath : (1 - u) ^ 2 * (density * thickness / s.getD 1) ≤ ρ.path density thickness s ∧
      ρ.path density thickness s ≤ (1 + u) ^ 2 * (density * thickness / s.getD 1) := by
    have l1 := ρ.ge_down hdt
    have g1 := ρ.le_up hdt
    have r0 := ρ.nonneg hdt
    cases s with
    | none =>
      simp only [path, Option.getD_none, div_one]
      constructor
      · nlinarith [mul_nonneg (mul_nonneg hu0 u1) hdt]
      · nlinarith [mul_nonneg (mul_nonneg hu0 hu0) hdt, mul_nonneg hu0 hdt]
    | some x =>
      have hx := hs x rfl
      have hq := div_nonneg r0 hx.le
      have l2 := ρ.ge_down hq
      have g2 := ρ.le_up hq
      have l3 := div_le_div_of_nonneg_right l1 hx.le
      have g3 := div_le_div_of_nonneg_right g1 hx.le
      simp only [path, Option.getD_some]
      rw [mul_div_assoc] at l3 g3
      constructor
      · have := mul_le_mul_of_nonneg_left l3 u1
        nlinarith
      · have := mul_le_mul_of_nonneg_left g3 (show (0 : ℝ) ≤ 1 + u by linarith)
        nlinarith
  set D := density * thickness / s.getD 1 with hD
  set P := ρ.path density thickness s with hP
  have P0 : 0 ≤ P := (not_le.1 hp).le
  have hx0 : 0 ≤ D * mu := mul_nonneg q0 hmu
  have hPm := mul_nonneg P0 hmu
  have hxl : (1 - u) ^ 3 * (D * mu) ≤ ρ.rnd (P * mu) := by
    have a := ρ.ge_down hPm
    have b := mul_le_mul_of_nonneg_left (mul_le_mul_of_nonneg_right hpath.1 hmu) u1
    nlinarith
  have hxg : ρ.rnd (P * mu) ≤ (1 + u) ^ 3 * (D * mu) := by
    have a := ρ.le_up hPm
    have b := mul_le_mul_of_nonneg_left (mul_le_mul_of_nonneg_right hpath.2 hmu) (show (0 : ℝ) ≤ 1 + u by linarith)
    nlinarith
  have hE := exp_roundings hu0 hu hx0 hxl hxg
  set x' := ρ.rnd (P * mu) with hx'
  have x'0 : 0 ≤ x' := ρ.nonneg hPm
  have e1 : Real.exp (-x') ≤ 1 := Real.exp_le_one_iff.2 (by linarith)
  have e0 := Real.exp_pos (-x')
  have hex := hexp (-x')
  set T := ex (-x') with hT
  set X' := Real.exp (-x') with hX'
  set X := Real.exp (-(D * mu)) with hX
  have ε0 : 0 ≤ ε := by
    have := (abs_nonneg _).trans hex
    by_contra hc
    nlinarith
  have hTX : |T - X'| ≤ ε := hex.trans (by nlinarith)
  have T0 : 0 ≤ T := by
    have := (abs_le.1 hex).1
    nlinarith
  have T2 : T ≤ 2 := by
    have := (abs_le.1 hTX).2
    linarith
  have hfT : |funny * T - funny * X| ≤ 4 * u + ε := by
    rw [← mul_sub, abs_mul, abs_of_nonneg h0]
    have : |T - X| ≤ 4 * u + ε := by
      have := abs_sub_le T X' X
      linarith
    nlinarith [abs_nonneg (T - X)]
  have n1 := ρ.near (1 - funny)
  rw [abs_of_nonneg (show 0 ≤ 1 - funny by linarith)] at n1
  have fT0 : 0 ≤ funny * T := mul_nonneg h0 T0
  have n2 := ρ.near (funny * T)
  rw [abs_of_nonneg fT0] at n2
  have r1 := ρ.nonneg (show 0 ≤ 1 - funny by linarith)
  have r2 := ρ.nonneg fT0
  have n3 := ρ.near (ρ.rnd (1 - funny) + ρ.rnd (funny * T))
  rw [abs_of_nonneg (add_nonneg r1 r2)] at n3
  have fT2 : (1 - funny) + funny * T ≤ 2 := by
    have := mul_le_mul_of_nonneg_left T2 h0
    linarith
  rw [abs_le] at n1 n2 n3 hfT ⊢
  have w1 : u * (1 - funny) + u * (funny * T) ≤ 2 * u := by
    have := mul_le_mul_of_nonneg_left fT2 hu0
    rw [mul_add] at this
    linarith
  have w2 : u * (ρ.rnd (1 - funny) + ρ.rnd (funny * T)) ≤ 3 * u := by
    have : ρ.rnd (1 - funny) + ρ.rnd (funny * T) ≤ 3 := by linarith [n1.2, n2.2]
    have := mul_le_mul_of_nonneg_left this hu0
    linarith
  constructor
  · linarith [n1.1, n2.1, n3.1, hfT.1]
  · linarith [n1.2, n2.2, n3.2, hfT.2]

/-! ## IEEE-754 -/

theorem double_apply {x : ℝ} (hx : 0 < x) : double.rnd x = posRnd 52 nearestEven x := by
  show binRnd 52 nearestEven x = _
  unfold binRnd
  rw [if_pos hx]

/-- A sum above one by no more than a quarter of the distance to the next number is rounded to one. -/
theorem double_one {x : ℝ} (hx : x ≤ 1 + (1 / 2) ^ 54) : double.rnd x ≤ 1 := by
  refine le_trans (double.mono hx) ?_
  have hp : (0 : ℝ) < 1 + (1 / 2) ^ 54 := by positivity
  rw [double_apply hp]
  have hl : Int.log 2 (1 + (1 / 2 : ℝ) ^ 54) = 0 := by
    apply le_antisymm
    · have := (Int.lt_zpow_iff_log_lt (R := ℝ) (b := 2) (by norm_num) hp (x := 1)).1 (by norm_num)
      omega
    · exact (Int.zpow_le_iff_le_log (R := ℝ) (b := 2) (by norm_num) hp).1 (by norm_num)
  have hu : ulp 52 (1 + (1 / 2 : ℝ) ^ 54) = (1 / 2) ^ 52 := by
    unfold ulp
    rw [hl]
    norm_num
  have hq : (1 + (1 / 2 : ℝ) ^ 54) / ulp 52 (1 + (1 / 2 : ℝ) ^ 54) = 2 ^ 52 + 1 / 4 := by
    rw [hu]
    norm_num
  have hf : ⌊(2 ^ 52 + 1 / 4 : ℝ)⌋ = 2 ^ 52 := by
    rw [Int.floor_eq_iff]
    norm_num
  have hn : nearestEven (2 ^ 52 + 1 / 4 : ℝ) = 2 ^ 52 := by
    unfold nearestEven
    rw [if_pos, hf]
    unfold Int.fract
    rw [hf]
    norm_num
  unfold posRnd
  rw [hq, hn, hu]
  norm_num

/-- The error of a number below one. -/
theorem double_below_one {x : ℝ} (h0 : 0 ≤ x) (h1 : x ≤ 1) : double.rnd x ≤ x + (1 / 2) ^ 54 := by
  rcases eq_or_lt_of_le h1 with h | h
  · subst h
    rw [double.one]
    have : (0 : ℝ) < (1 / 2) ^ 54 := by positivity
    linarith
  rcases eq_or_lt_of_le h0 with h' | h'
  · subst h'
    rw [double.zero]
    positivity
  rw [double_apply h']
  have hl : Int.log 2 x ≤ -1 := by
    have := (Int.lt_zpow_iff_log_lt (R := ℝ) (b := 2) (by norm_num) h' (x := 0)).1 (by simpa using h)
    omega
  have hu : ulp 52 x ≤ (1 / 2) ^ 53 := by
    have : ulp 52 x ≤ (2 : ℝ) ^ (-53 : ℤ) := by
      unfold ulp
      apply zpow_le_zpow_right₀ (by norm_num)
      push_cast
      omega
    refine le_trans this (le_of_eq ?_)
    norm_num
  have hup := ulp_pos (p := 52) x
  have hn := (abs_le.1 (nearestEven_near (x / ulp 52 x))).2
  unfold posRnd
  have e : (nearestEven (x / ulp 52 x) : ℝ) * ulp 52 x
      = x + ((nearestEven (x / ulp 52 x) : ℝ) - x / ulp 52 x) * ulp 52 x := by
    rw [sub_mul, div_mul_cancel₀ _ hup.ne']
    ring
  rw [e]
  have := mul_le_mul hn hu hup.le (by norm_num : (0 : ℝ) ≤ 1 / 2)
  have e2 : (1 / 2 : ℝ) * (1 / 2) ^ 53 = (1 / 2) ^ 54 := by norm_num
  linarith

/-- **C187** In double precision the transmission of a layer with holes (funny factor below one) is between zero and one
too. -/
theorem C187_double {ex : ℝ → ℝ} (hex : ExpOk ex) {density thickness funny mu : ℝ} {s : Option ℝ} {v : ℝ}
    (hmu : 0 ≤ mu) (h0 : 0 ≤ funny) (h1 : funny ≤ 1) (hf : double.Fits funny)
    (h : double.transmission ex density thickness funny s mu = .ok v) : 0 ≤ v ∧ v ≤ 1 := by
  refine ⟨double.C187_not_negative hex h0 h1 h, ?_⟩
  obtain ⟨t, ht, rfl⟩ := double.transmission_value h
  have hx : -double.rnd (t * mu) ≤ 0 := neg_nonpos.2 (double.nonneg (mul_nonneg ht.le hmu))
  have a := double_below_one (x := 1 - funny) (by linarith) (by linarith)
  have b : double.rnd (funny * ex (-double.rnd (t * mu))) ≤ funny := by
    have := double.mono (mul_le_of_le_one_right h0 (hex.le_one _ hx))
    rwa [show double.rnd funny = funny from hf] at this
  exact double_one (by linarith)

/-- The hypotheses are met: a layer of 0.01 cm with density 2 and coefficient 3, half of it holes, with the exact exponential
function. -/
example : ExpOk Real.exp ∧ double.Fits (1 / 2) ∧ ∃ v, double.transmission Real.exp 2 0.01 (1 / 2) none 3 = .ok v := by
  refine ⟨⟨fun x => (Real.exp_pos x).le, fun x hx => Real.exp_le_one_iff.2 hx, Real.exp_monotone⟩, ?_, ?_⟩
  · show double.rnd (1 / 2) = 1 / 2
    rw [double_apply (by norm_num)]
    apply posRnd_fix_of_int nearestEven_mono nearestEven_int (2 ^ 52)
    have hl : Int.log 2 (1 / 2 : ℝ) = -1 := by
      have := Int.log_zpow (R := ℝ) (b := 2) (by norm_num) (-1)
      simpa using this
    unfold ulp
    rw [hl]
    norm_num
  · have hp : 0 < double.path 2 0.01 none := double.pos (by norm_num) (by norm_num)
    unfold transmission
    rw [if_neg (not_le.2 hp)]
    exact ⟨_, rfl⟩

end Rounding
end Fisx
