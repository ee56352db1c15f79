import Verif.Xrf
import Mathlib.Analysis.SpecialFunctions.Trigonometric.Arctan

/-!
# Properties C41, C43 and C54 (parsing)
-/

set_option linter.unusedSectionVars false

namespace Fisx
namespace Xrf

variable {R : Type}

/-! ## C41: the geometric efficiency -/

/-- The thickness of the layers `i, …, i + n - 1` of the sample. -/
def thicknessFrom (sample : List (Layer ℝ)) (i n : Nat) : ℝ := (((sample.drop i).take n).map Layer.thickness).sum

/-- The distance between the detector and a layer seen under the angle of the detector: the distance of the detector to
the reference layer, plus (minus) what is between that layer and a deeper (higher) one. -/
noncomputable def effectiveDistance (distance alphaOut : ℝ) (sample : List (Layer ℝ)) (ref layer : Nat) : ℝ :=
  distance + (thicknessFrom sample ref (layer - ref) - thicknessFrom sample layer (ref - layer)) /
    Real.sin (alphaOut * (Real.pi / 180))

/-- The fraction of the full sphere covered by a disc of a given radius seen from its axis, at a distance (negative:
from behind): the half angle of the cone is the angle of the point (distance, radius). -/
noncomputable def coneFraction (distance radius : ℝ) : ℝ :=
  (1 - Real.cos (Complex.arg ⟨distance, radius⟩)) / 2

theorem pathLoop_eq (f : ℝ → ℝ → ℝ) (g : ℝ → ℝ → ℝ → ℝ) (sample : List (Layer ℝ)) (s : ℝ)
    (h0 : ∀ d s, g d 0 s = d) (h1 : ∀ d t r, f d (t / s) |> fun x => g x r s = g d (t + r) s) (n : Nat) :
    ∀ (i : Nat) (d : ℝ), i + n ≤ sample.length →
      pathLoop f sample s i n d = .ok (g d (thicknessFrom sample i n) s) := by
  induction n with
  | zero => intro i d _; simp [pathLoop, thicknessFrom, h0]
  | succ n ih =>
    intro i d h
    have hi : i < sample.length := by omega
    rw [pathLoop, vget, List.getElem?_eq_getElem hi]
    simp only [Outcome.ok_bind]
    rw [ih (i + 1) _ (by omega)]
    have : thicknessFrom sample i (n + 1) = sample[i].thickness + thicknessFrom sample (i + 1) n := by
      unfold thicknessFrom
      rw [List.drop_eq_getElem_cons hi, List.take_succ_cons, List.map_cons, List.sum_cons]
    rw [this, h1]

theorem pathLoop_ub (f : ℝ → ℝ → ℝ) (sample : List (Layer ℝ)) (s : ℝ) (n : Nat) :
    ∀ (i : Nat) (d : ℝ), sample.length < i + n → 0 < n → pathLoop f sample s i n d = .ub .outOfBounds := by
  induction n with
  | zero => intro i d _ h; omega
  | succ n ih =>
    intro i d h _
    rw [pathLoop, vget]
    cases hx : sample[i]? with
    | none => rfl
    | some l =>
      simp only [Outcome.ok_bind]
      have hi : i < sample.length := by
        by_contra hc
        rw [List.getElem?_eq_none (by omega)] at hx
        cases hx
      exact ih (i + 1) _ (by omega) (by omega)

theorem coneFraction_eq {d r : ℝ} (hr : r ≠ 0) :
    coneFraction d |r| = 1 / 2 * (1 - d / Real.sqrt (d ^ 2 + r ^ 2)) := by
  have hne : (⟨d, |r|⟩ : ℂ) ≠ 0 := by
    intro h
    have := congrArg Complex.im h
    simp at this
    exact hr this
  unfold coneFraction
  rw [Complex.cos_arg hne]
  have : ‖(⟨d, |r|⟩ : ℂ)‖ = Real.sqrt (d ^ 2 + r ^ 2) := by
    rw [Complex.norm_def, Complex.normSq_mk]
    congr 1
    rw [abs_mul_abs_self]; ring
  rw [this]
  ring

/-- C41, what the efficiency is. For every configuration with a detector of non zero diameter at a positive distance
and a reference layer, every layer reached inside the sample gets the fraction of the sphere covered by the detector as
seen from the effective distance of that layer; a zero diameter gives 1, a negative layer is rejected and a layer
outside of the sample (and of its lower end) is read out of bounds. -/
theorem C41_value (c : Config ℝ R) (ref layer : Nat) (href : c.referenceLayer = some (ref : Int))
    (hd : 0 < c.detector.distance) :
    (c.detector.diameter = 0 → getGeometricEfficiency c layer = .ok 1) ∧
    (c.detector.diameter ≠ 0 → max ref layer ≤ c.sample.length ∨ ref = layer →
      getGeometricEfficiency c layer = .ok (coneFraction
        (effectiveDistance c.detector.distance c.alphaOut c.sample ref layer) |c.detector.diameter / 2|)) ∧
    (c.detector.diameter ≠ 0 → c.sample.length < max ref layer → ref ≠ layer →
      getGeometricEfficiency c layer = .ub .outOfBounds) ∧
    (c.detector.diameter ≠ 0 → ∀ l : Int, l < 0 → getGeometricEfficiency c l = .throw .invalidArgument) := by
  refine ⟨fun h => ?_, fun h hl => ?_, fun h hl hne => ?_, fun h l hl => ?_⟩
  · unfold getGeometricEfficiency; simp [h]
  · have hr : c.detector.diameter / 2 ≠ 0 := div_ne_zero h two_ne_zero
    rw [coneFraction_eq hr]
    unfold getGeometricEfficiency
    dsimp only
    rw [if_neg h, if_neg (fun hx => hd.ne' hx.1), if_neg (by omega), href]
    dsimp only
    have hrad : (1 / 2 * c.detector.diameter) = c.detector.diameter / 2 := by ring
    unfold effectiveDistance
    by_cases heq : (layer : Int) = ref
    · have : layer = ref := by exact_mod_cast heq
      subst this
      rw [if_neg (by simp), Outcome.ok_bind, hrad]
      simp [thicknessFrom]
    · have hl : max ref layer ≤ c.sample.length := by
        rcases hl with hl | hl
        · exact hl
        · exact absurd (by rw [hl]) heq
      rw [if_pos heq]
      by_cases hgt : (layer : Int) > ref
      · rw [if_pos hgt, if_neg (by omega), Int.toNat_natCast,
          show ((layer : Int) - ref).toNat = layer - ref by omega,
          pathLoop_eq (fun a b => a + b) (fun d t s => d + t / s) c.sample _ (by intros; simp)
            (by intros; ring) _ _ _ (by omega), Outcome.ok_bind, hrad]
        rw [show ref - layer = 0 by omega]
        simp [thicknessFrom]
      · rw [if_neg hgt, Int.toNat_natCast, show ((ref : Int) - layer).toNat = ref - layer by omega,
          pathLoop_eq (fun a b => a - b) (fun d t s => d - t / s) c.sample _ (by intros; simp)
            (by intros; ring) _ _ _ (by omega), Outcome.ok_bind, hrad]
        rw [show layer - ref = 0 by omega]
        simp [thicknessFrom, neg_div, sub_eq_add_neg]
  · unfold getGeometricEfficiency
    dsimp only
    rw [if_neg h, if_neg (fun hx => hd.ne' hx.1), if_neg (by omega), href]
    dsimp only
    rw [if_pos (by exact_mod_cast hne.symm)]
    by_cases hgt : (layer : Int) > ref
    · rw [if_pos hgt, if_neg (by omega), Int.toNat_natCast, pathLoop_ub _ _ _ _ _ _ (by omega) (by omega)]
      rfl
    · rw [if_neg hgt, Int.toNat_natCast, pathLoop_ub _ _ _ _ _ _ (by omega) (by omega)]
      rfl
  · unfold getGeometricEfficiency
    dsimp only
    rw [if_neg h, if_neg (fun hx => hd.ne' hx.1), if_pos hl]

theorem ratio_lt {d d' r : ℝ} (hr : 0 < r) (h : d < d') :
    d / Real.sqrt (d ^ 2 + r ^ 2) < d' / Real.sqrt (d' ^ 2 + r ^ 2) := by
  have p : ∀ x : ℝ, 0 < x ^ 2 + r ^ 2 := fun x => by positivity
  have q : ∀ x : ℝ, 0 < Real.sqrt (x ^ 2 + r ^ 2) := fun x => Real.sqrt_pos.2 (p x)
  have sq : ∀ x : ℝ, Real.sqrt (x ^ 2 + r ^ 2) ^ 2 = x ^ 2 + r ^ 2 := fun x => Real.sq_sqrt (p x).le
  rw [div_lt_div_iff₀ (q d) (q d')]
  -- compare d * √(d'² + r²) and d' * √(d² + r²)
  have hcmp : ∀ a b : ℝ, 0 ≤ a → a < b → a * Real.sqrt (b ^ 2 + r ^ 2) < b * Real.sqrt (a ^ 2 + r ^ 2) := by
    intro a b ha hab
    have hb : 0 < b := lt_of_le_of_lt ha hab
    refine lt_of_pow_lt_pow_left₀ 2 (by positivity) ?_
    rw [mul_pow, mul_pow, sq, sq]
    nlinarith [mul_pos hr hr, mul_pos (sub_pos.2 hab) (add_pos_of_nonneg_of_pos ha hb)]
  rcases le_or_gt 0 d with h0 | h0
  · exact hcmp d d' h0 h
  · rcases le_or_gt d' 0 with h1 | h1
    · have := hcmp (-d') (-d) (by linarith) (by linarith)
      rw [neg_sq, neg_sq] at this
      linarith
    · have a := mul_neg_of_neg_of_pos h0 (q d')
      have b := mul_pos h1 (q d)
      linarith

theorem div_nonneg_iff_of_pos_right' {a b : ℝ} (hb : 0 < b) : 0 ≤ a / b ↔ 0 ≤ a := by
  rw [le_div_iff₀ hb, zero_mul]

theorem coneFraction_pos_lt (d : ℝ) {r : ℝ} (hr : 0 < r) : 0 < coneFraction d r ∧ coneFraction d r < 1 := by
  have h := coneFraction_eq (d := d) hr.ne'
  rw [abs_of_pos hr] at h
  have hp : 0 < d ^ 2 + r ^ 2 := by positivity
  have hq : 0 < Real.sqrt (d ^ 2 + r ^ 2) := Real.sqrt_pos.2 hp
  have hlt : |d| < Real.sqrt (d ^ 2 + r ^ 2) := by
    rw [← Real.sqrt_sq_eq_abs]
    exact Real.sqrt_lt_sqrt (sq_nonneg d) (by nlinarith)
  have h1 : d / Real.sqrt (d ^ 2 + r ^ 2) < 1 := by
    rw [div_lt_one hq]; exact lt_of_le_of_lt (le_abs_self d) hlt
  have h2 : -1 < d / Real.sqrt (d ^ 2 + r ^ 2) := by
    rw [lt_div_iff₀ hq]
    have := neg_abs_le d
    linarith
  rw [h]
  constructor <;> linarith

/-- C41, the range and the monotonicity of the fraction of the sphere: always between 0 and 1, at most one half iff the
layer is not above the detector, strictly decreasing with the distance, and increasing with the diameter for a layer in
front of the detector. -/
theorem C41_monotone {d r : ℝ} (hr : 0 < r) :
    0 < coneFraction d r ∧ coneFraction d r < 1 ∧ (coneFraction d r ≤ 1 / 2 ↔ 0 ≤ d) ∧
    (∀ d', d < d' → coneFraction d' r < coneFraction d r) ∧
    (0 < d → ∀ r', r < r' → coneFraction d r < coneFraction d r') := by
  have e : ∀ d r : ℝ, 0 < r → coneFraction d r = 1 / 2 * (1 - d / Real.sqrt (d ^ 2 + r ^ 2)) := by
    intro d r hr
    have h := coneFraction_eq (d := d) hr.ne'
    rwa [abs_of_pos hr] at h
  have hq : ∀ d r : ℝ, 0 < r → 0 < Real.sqrt (d ^ 2 + r ^ 2) := fun d r hr => Real.sqrt_pos.2 (by positivity)
  refine ⟨(coneFraction_pos_lt d hr).1, (coneFraction_pos_lt d hr).2, ?_, ?_, ?_⟩
  · rw [e d r hr]
    have : (0 ≤ d ↔ 0 ≤ d / Real.sqrt (d ^ 2 + r ^ 2)) := (div_nonneg_iff_of_pos_right' (hq d r hr)).symm
    rw [this]
    constructor <;> intro h <;> linarith
  · intro d' h
    rw [e d r hr, e d' r hr]
    have := ratio_lt hr h
    linarith
  · intro hd r' h
    have hr' : 0 < r' := hr.trans h
    rw [e d r hr, e d r' hr']
    have : d / Real.sqrt (d ^ 2 + r' ^ 2) < d / Real.sqrt (d ^ 2 + r ^ 2) := by
      apply div_lt_div_of_pos_left hd (hq d r hr)
      exact Real.sqrt_lt_sqrt (by positivity) (by nlinarith)
    linarith

/-- C41, deeper layers: with positive thicknesses and the detector above the sample, every layer inside the sample has a
larger effective distance than the one above it, hence a smaller efficiency. -/
theorem C41_deeper (c : Config ℝ R) (ref layer : Nat) (href : c.referenceLayer = some (ref : Int))
    (hd : 0 < c.detector.distance) (hdiam : 0 < c.detector.diameter) (hr : ref ≤ c.sample.length)
    (hl : layer < c.sample.length) (hs : 0 < Real.sin (c.alphaOut * (Real.pi / 180)))
    (ht : ∀ l ∈ c.sample, 0 < l.thickness) :
    ∃ a b, getGeometricEfficiency c layer = .ok a ∧ getGeometricEfficiency c ((layer + 1 : Nat) : Int) = .ok b ∧
      0 < b ∧ b < a ∧ a < 1 := by
  have h1 := (C41_value c ref layer href hd).2.1 hdiam.ne' (Or.inl (by omega))
  have h2 := (C41_value c ref (layer + 1) href hd).2.1 hdiam.ne' (Or.inl (by omega))
  have hrad : 0 < |c.detector.diameter / 2| := abs_pos.2 (by positivity)
  refine ⟨_, _, h1, h2, (coneFraction_pos_lt _ hrad).1, ?_, (coneFraction_pos_lt _ hrad).2⟩
  refine (C41_monotone hrad).2.2.2.1 _ ?_
  unfold effectiveDistance
  have hpos : 0 < (c.sample[layer]).thickness := ht _ (List.getElem_mem hl)
  have step : thicknessFrom c.sample ref (layer + 1 - ref) - thicknessFrom c.sample (layer + 1) (ref - (layer + 1)) =
      thicknessFrom c.sample ref (layer - ref) - thicknessFrom c.sample layer (ref - layer) +
        (c.sample[layer]).thickness := by
    by_cases h : ref ≤ layer
    · rw [show ref - (layer + 1) = 0 by omega, show ref - layer = 0 by omega,
        show layer + 1 - ref = (layer - ref) + 1 by omega]
      unfold thicknessFrom
      rw [List.take_add_one, List.getElem?_drop, show ref + (layer - ref) = layer by omega,
        List.getElem?_eq_getElem hl]
      simp
    · rw [show layer + 1 - ref = 0 by omega, show layer - ref = 0 by omega,
        show ref - layer = (ref - (layer + 1)) + 1 by omega]
      unfold thicknessFrom
      rw [List.drop_eq_getElem_cons hl, List.take_succ_cons, List.map_cons, List.sum_cons]
      simp only [List.take_zero, List.map_nil, List.sum_nil]
      ring
  rw [step, add_div]
  have := div_pos hpos hs
  linarith

/-- C95, what holds: at most one half exactly when the layer is not above the detector (for a detector with a diameter). -/
theorem C95_half_partial (c : Config ℝ R) (ref layer : Nat) (href : c.referenceLayer = some (ref : Int))
    (hd : 0 < c.detector.distance) (hdiam : 0 < c.detector.diameter) (hr : max ref layer ≤ c.sample.length) :
    ∃ a, getGeometricEfficiency c layer = .ok a ∧ 0 < a ∧ a < 1 ∧
      (a ≤ 1 / 2 ↔ 0 ≤ effectiveDistance c.detector.distance c.alphaOut c.sample ref layer) := by
  have hrad : 0 < |c.detector.diameter / 2| := abs_pos.2 (by positivity)
  obtain ⟨h1, h2, h3, -⟩ := C41_monotone (d := effectiveDistance c.detector.distance c.alphaOut c.sample ref layer) hrad
  exact ⟨_, (C41_value c ref layer href hd).2.1 hdiam.ne' (Or.inl hr), h1, h2, h3⟩

/-- C95 is false as stated: the efficiency passes one half for a layer above the reference layer that is farther from it
than the detector is. -/
theorem C95_above_half_violated :
    ∃ (c : Config ℝ Unit) (e : ℝ), 0 < c.detector.distance ∧ 0 < c.detector.diameter ∧
      getGeometricEfficiency c 0 = .ok e ∧ 1 / 2 < e := by
  let c : Config ℝ Unit := { (Config.new : Config ℝ Unit) with
    alphaOut := 90, sample := [Layer.new "A" 1 20 1, Layer.new "B" 1 1 1], referenceLayer := some 1,
    detector := { (Config.defaultDetector : Detector ℝ Unit) with diameter := 2 } }
  have h := (C41_value c 1 0 rfl (by simp [c, Config.defaultDetector, Detector.new])).2.1 (by simp [c])
    (Or.inl (by simp [c]))
  refine ⟨c, _, by simp [c, Config.defaultDetector, Detector.new], by simp [c], h, ?_⟩
  have hr : 0 < |c.detector.diameter / 2| := by simp [c]
  rw [← not_le, (C41_monotone hr).2.2.1, not_le]
  have hs : Real.sin (90 * (Real.pi / 180)) = 1 := by
    rw [show (90 : ℝ) * (Real.pi / 180) = Real.pi / 2 by ring, Real.sin_pi_div_two]
  simp only [effectiveDistance, c, Config.defaultDetector, Detector.new, hs, thicknessFrom, Layer.new]
  norm_num

/-- The hypotheses of `C41_deeper` are met. -/
example : ∃ a b, getGeometricEfficiency { (Config.new : Config ℝ Unit) with
      alphaOut := 90, sample := [Layer.new "A" 1 20 1, Layer.new "B" 1 1 1], referenceLayer := some 0,
      detector := { (Config.defaultDetector : Detector ℝ Unit) with diameter := 2 } } 0 = .ok a ∧
    getGeometricEfficiency { (Config.new : Config ℝ Unit) with
      alphaOut := 90, sample := [Layer.new "A" 1 20 1, Layer.new "B" 1 1 1], referenceLayer := some 0,
      detector := { (Config.defaultDetector : Detector ℝ Unit) with diameter := 2 } } 1 = .ok b ∧ 0 < b ∧ b < a ∧ a < 1 := by
  refine C41_deeper _ 0 0 rfl (by simp [Config.defaultDetector, Detector.new]) (by simp) (by simp) (by simp) ?_ ?_
  · dsimp only
    rw [show (90 : ℝ) * (Real.pi / 180) = Real.pi / 2 by ring, Real.sin_pi_div_two]; norm_num
  · simp [Layer.new]

/-! ## C43: the threshold of a family -/

section Threshold

variable {K : Type} [Field K] [LinearOrder K]

/-- The subshells of a family, from the innermost. -/
def subshells (family : String) : List Str :=
  if family = "K" then ["K".toList]
  else if family = "L" then ["L1".toList, "L2".toList, "L3".toList]
  else if family = "M" then ["M1".toList, "M2".toList, "M3".toList, "M4".toList, "M5".toList]
  else []

/-- Binding energies decrease towards the outer subshells of a family (where they are known). -/
def Ordered (binding : SMap Str K) (family : String) : Prop :=
  (subshells family).Pairwise (fun a b => 0 < Element.at0 binding a → 0 < Element.at0 binding b →
    Element.at0 binding b ≤ Element.at0 binding a)

/-- The first positive value of a list, the last one if there is none. -/
def pick (b : Str → K) : Str → List Str → K
  | s, [] => b s
  | s, t :: r => if b s > 0 then b s else pick b t r

theorem pick_spec (b : Str → K) (s : Str) (r : List Str)
    (ho : (s :: r).Pairwise (fun x y => 0 < b y → 0 < b x → b x ≤ b y)) :
    (0 < pick b s r → (∃ x ∈ s :: r, b x = pick b s r) ∧ ∀ x ∈ s :: r, 0 < b x → pick b s r ≤ b x) ∧
    (pick b s r ≤ 0 → ∀ x ∈ s :: r, b x ≤ 0) := by
  induction r generalizing s with
  | nil => simp [pick]
  | cons t r ih =>
    rw [pick]
    have ho' := List.pairwise_cons.1 ho
    by_cases h : b s > 0
    · rw [if_pos h]
      refine ⟨fun _ => ⟨⟨s, List.mem_cons_self .., rfl⟩, fun x hx hp => ?_⟩, fun hn => absurd h (not_lt.2 hn)⟩
      rcases List.mem_cons.1 hx with rfl | hx
      · exact le_refl _
      · exact ho'.1 x hx hp h
    · rw [if_neg h]
      obtain ⟨i1, i2⟩ := ih t ho'.2
      refine ⟨fun hp => ?_, fun hn x hx => ?_⟩
      · obtain ⟨⟨x, hx, hxe⟩, hall⟩ := i1 hp
        refine ⟨⟨x, List.mem_cons_of_mem _ hx, hxe⟩, fun y hy hyp => ?_⟩
        rcases List.mem_cons.1 hy with rfl | hy
        · exact absurd hyp h
        · exact hall y hy hyp
      · rcases List.mem_cons.1 hx with rfl | hx
        · exact not_lt.1 h
        · exact i2 hn x hx

/-- C43, for the families K, L and M and binding energies ordered as in atoms: a positive threshold is the smallest
positive binding energy of the subshells of the family; otherwise no subshell of the family has one. -/
theorem C43_least_partial (binding : SMap Str K) (family : String) (hf : family = "K" ∨ family = "L" ∨ family = "M")
    (ho : Ordered binding family) :
    (0 < threshold binding family.toList →
      (∃ s ∈ subshells family, Element.at0 binding s = threshold binding family.toList) ∧
      ∀ s ∈ subshells family, 0 < Element.at0 binding s → threshold binding family.toList ≤ Element.at0 binding s) ∧
    (threshold binding family.toList ≤ 0 → ∀ s ∈ subshells family, Element.at0 binding s ≤ 0) := by
  have key : ∀ s r, threshold binding family.toList = pick (Element.at0 binding) s r →
      subshells family = (s :: r).reverse →
      (0 < threshold binding family.toList →
        (∃ s ∈ subshells family, Element.at0 binding s = threshold binding family.toList) ∧
        ∀ s ∈ subshells family, 0 < Element.at0 binding s → threshold binding family.toList ≤ Element.at0 binding s) ∧
      (threshold binding family.toList ≤ 0 → ∀ s ∈ subshells family, Element.at0 binding s ≤ 0) := by
    intro s r ht hs
    unfold Ordered at ho
    rw [hs, List.pairwise_reverse] at ho
    rw [ht, hs]
    simp only [List.mem_reverse]
    exact pick_spec (Element.at0 binding) s r ho
  rcases hf with rfl | rfl | rfl
  · exact key "K".toList [] (by simp [threshold, pick]) (by decide)
  · refine key "L3".toList ["L2".toList, "L1".toList] ?_ (by decide)
    unfold threshold
    rw [if_neg (by decide), if_pos (by decide)]
    rfl
  · refine key "M5".toList ["M4".toList, "M3".toList, "M2".toList, "M1".toList] ?_ (by decide)
    unfold threshold
    rw [if_neg (by decide), if_neg (by decide), if_pos (by decide)]
    rfl

/-- C43, its purpose: at an energy not above the threshold no subshell of the family is among the excited shells of the
element. -/
theorem C43_not_excited_partial (e : Element K) (family : String) (hf : family = "K" ∨ family = "L" ∨ family = "M")
    (ho : Ordered e.binding family) (hs : SMap.Sorted e.binding) (x : K)
    (hx : x ≤ threshold e.binding family.toList) (s : Str) (hmem : s ∈ subshells family) :
    s ∉ e.getExcitedShells x := by
  intro hc
  unfold Element.getExcitedShells at hc
  obtain ⟨⟨k, b⟩, hb, rfl⟩ := List.mem_map.1 hc
  obtain ⟨hb, hp⟩ := List.mem_filter.1 hb
  simp only [decide_eq_true_eq] at hp
  have hat : Element.at0 e.binding k = b := by
    unfold Element.at0
    rw [SMap.find?_of_mem hs hb]; rfl
  have h := C43_least_partial e.binding family hf ho
  rcases lt_or_ge 0 (threshold e.binding family.toList) with h0 | h0
  · have := (h.1 h0).2 k hmem (by rw [hat]; exact hp.1)
    rw [hat] at this
    exact absurd hp.2 (not_lt.2 (hx.trans this))
  · have := h.2 h0 k hmem
    rw [hat] at this
    exact absurd hp.1 (not_lt.2 this)

/-- C43 through the library: the answer for a known element; an unknown one is rejected. -/
theorem C43_library (L : Library K) (element family : String) :
    (∀ e, L.getElement element = .ok e → getEnergyThreshold L element family = .ok (threshold e.data.binding family.toList)) ∧
    (L.isElementNameDefined element = false → getEnergyThreshold L element family = .throw .invalidArgument) := by
  constructor
  · intro e he; unfold getEnergyThreshold; rw [he]; rfl
  · intro h; unfold getEnergyThreshold Library.getElement; simp [h]

end Threshold

/-- C43 is false for binding energies that are not ordered (they are stored unchecked): the threshold of L is 5 although
L1 is at 2; and for a family of two letters that is no subshell, as "Ka" and "Kb", the threshold is 0. -/
theorem C43_violated :
    threshold ([("L1".toList, 2), ("L3".toList, 5)] : SMap Str ℚ) "L".toList = 5 ∧
    threshold ([("K".toList, 7)] : SMap Str ℚ) "Ka".toList = 0 ∧
    threshold ([("K".toList, 7)] : SMap Str ℚ) "Kb".toList = 0 := by decide +kernel

example : threshold ([("K".toList, 7), ("L1".toList, 4), ("L2".toList, 3), ("L3".toList, 0)] : SMap Str ℚ) "L".toList = 3 ∧
    Ordered ([("K".toList, 7), ("L1".toList, 4), ("L2".toList, 3), ("L3".toList, 0)] : SMap Str ℚ) "L" := by
  constructor
  · decide +kernel
  · unfold Ordered; decide +kernel

/-! ## C54: requests -/

/-- A non empty text without blanks. -/
def Token (s : Str) : Prop := s ≠ [] ∧ ∀ c ∈ s, Ini.isSpace c = false

theorem itemsFrom_token (a : Str) (h : ∀ c ∈ a, Ini.isSpace c = false) (cur rest : Str) :
    Ini.itemsFrom ' ' cur (a ++ rest) = Ini.itemsFrom ' ' (cur ++ a) rest := by
  induction a generalizing cur with
  | nil => simp
  | cons c t ih =>
    have hc : c ≠ ' ' := by
      rintro rfl
      have := h ' ' (List.mem_cons_self ..)
      revert this; decide
    rw [List.cons_append, Ini.itemsFrom, if_neg hc, ih (fun x hx => h x (List.mem_cons_of_mem _ hx))]
    simp

theorem takeWhile_all {α : Type} {p : α → Bool} {l : List α} (h : ∀ x ∈ l, p x = true) :
    l.takeWhile p = l := by
  induction l with
  | nil => rfl
  | cons c t ih =>
    rw [List.takeWhile_cons_of_pos (h c (List.mem_cons_self ..)),
      ih (fun x hx => h x (List.mem_cons_of_mem _ hx))]

theorem word_token {a : Str} (h : Token a) : (Ini.word a).getD [] = a := by
  obtain ⟨hne, hs⟩ := h
  cases a with
  | nil => exact absurd rfl hne
  | cons c t =>
    have hd : (c :: t).dropWhile Ini.isSpace = c :: t := by
      rw [List.dropWhile_cons_of_neg (by rw [hs c (List.mem_cons_self ..)]; simp)]
    unfold Ini.word
    rw [hd]
    simp only [List.cons_ne_nil, if_false, Option.getD_some]
    exact takeWhile_all (fun x hx => by rw [hs x hx]; rfl)

/-- C54, single requests: "Element", "Element Family" and "Element Family Layer", with one blank between the parts, are
turned into the element, the family and the layer they name; without layer all layers (-1) are meant, without family the
family is empty; a layer that is no integer is rejected. -/
theorem C54_parse (int : Str → Option Int) (e f l : Str) (he : Token e) (hf : Token f) (hl : Token l) :
    parseRequest int e = .ok { element := String.ofList e, family := "", layer := -1 } ∧
    parseRequest int (e ++ ' ' :: f) =
      .ok { element := String.ofList e, family := String.ofList f, layer := -1 } ∧
    (∀ n, int l = some n → parseRequest int (e ++ ' ' :: (f ++ ' ' :: l)) =
      .ok { element := String.ofList e, family := String.ofList f, layer := n }) ∧
    (int l = none → parseRequest int (e ++ ' ' :: (f ++ ' ' :: l)) = .throw .invalidArgument) := by
  have one : ∀ a, Token a → Ini.items ' ' a = [a] := by
    intro a ha
    unfold Ini.items
    have := itemsFrom_token a ha.2 [] []
    rw [List.append_nil] at this
    rw [this, List.nil_append, Ini.itemsFrom, if_neg ha.1]
  have more : ∀ a b, Token a → Ini.items ' ' (a ++ ' ' :: b) = a :: Ini.items ' ' b := by
    intro a b ha
    unfold Ini.items
    rw [itemsFrom_token a ha.2, List.nil_append, Ini.itemsFrom, if_pos rfl]
  have h1 : Ini.multipleValues Ini.word ' ' [] e = [e] := by
    unfold Ini.multipleValues; rw [one e he]; simp [word_token he]
  have h2 : Ini.multipleValues Ini.word ' ' [] (e ++ ' ' :: f) = [e, f] := by
    unfold Ini.multipleValues; rw [more e f he, one f hf]; simp [word_token he, word_token hf]
  have h3 : Ini.multipleValues Ini.word ' ' [] (e ++ ' ' :: (f ++ ' ' :: l)) = [e, f, l] := by
    unfold Ini.multipleValues; rw [more e _ he, more f l hf, one l hl]
    simp [word_token he, word_token hf, word_token hl]
  unfold parseRequest
  refine ⟨by rw [h1], by rw [h2], fun n hn => by rw [h3]; simp [hn], fun hn => by rw [h3]; simp [hn]⟩

/-- C54, the strings of a list are parsed one by one, in order. -/
theorem C54_list (int : Str → Option Int) (l : List Str) (rs : List Request) :
    parseRequests int l = .ok rs ↔ List.Forall₂ (fun s r => parseRequest int s = .ok r) l rs := by
  induction l generalizing rs with
  | nil =>
    constructor
    · intro h; cases h; exact List.Forall₂.nil
    · intro h; cases h; rfl
  | cons s t ih =>
    rw [parseRequests]
    constructor
    · intro h
      obtain ⟨r, hr, h⟩ := Outcome.bind_eq_ok.1 h
      obtain ⟨r2, hr2, h⟩ := Outcome.bind_eq_ok.1 h
      cases h
      exact List.Forall₂.cons hr ((ih r2).1 hr2)
    · intro h
      cases h with
      | cons h1 h2 => rw [h1, Outcome.ok_bind, (ih _).2 h2]; rfl

/-- Other strings pass the parser: a request with four parts, or an empty one, is taken for an element without name in
layer 0, and two blanks make an empty family. The calculation refuses them later (C100, `Verif/Requests.lean`). -/
theorem parse_malformed :
    parseRequest (fun _ => some 3) "Fe K 0 1".toList = .ok { element := "", family := "", layer := 0 } ∧
    parseRequest (fun _ => some 3) "".toList = .ok { element := "", family := "", layer := 0 } ∧
    parseRequest (fun _ => some 3) "Fe  K".toList = .ok { element := "Fe", family := "", layer := 3 } := by
  decide +kernel

example : parseRequest (fun s => if s = "2".toList then some 2 else none) "Fe K 2".toList =
    .ok { element := "Fe", family := "K", layer := 2 } ∧
    Token "Fe".toList ∧ Token "K".toList := by
  refine ⟨by decide +kernel, ⟨by decide, by decide⟩, ⟨by decide, by decide⟩⟩

end Xrf
end Fisx
