import Verif.RequestLayers

/-!
# C176: without mass fractions the excitation is per unit of mass fraction. C177: secondary excitation is only added
-/

set_option linter.unusedSectionVars false

namespace Fisx
namespace Multilayer

open Xrf (Request)

variable {R : Type} {pf : String → Outcome (SMap String ℝ)} {fuel : Nat} {L : Library ℝ}
  {srt : List (String × ℝ) → List (String × ℝ)} {c : Config ℝ R} {o : Options ℝ} {g : Bool} {b : Beam ℝ}

/-- The mass fraction of the element of a key in a layer. -/
noncomputable def keyFraction (pf : String → Outcome (SMap String ℝ)) (fuel : Nat) (L : Library ℝ) (c : Config ℝ R) (k : String) (i : Nat) : ℝ :=
  ((sampleComposition pf fuel L c i).find? (String.ofList (familyElement k))).getD 0

theorem keyFraction_eq {k : String} {i : Nat} {q : Request} (hq : ' ' ∉ q.element.toList) (hk : q.element ++ " " ++ q.family = k) :
    elementFraction pf fuel L c { o with useMassFractions := true } i q.element = keyFraction pf fuel L c k i := by
  unfold elementFraction keyFraction
  rw [if_pos rfl, ← hk, familyElement_key hq, String.ofList_toList]

theorem elementFraction_one (i : Nat) (el : String) : elementFraction pf fuel L c { o with useMassFractions := false } i el = 1 := by
  unfold elementFraction
  rw [if_neg (by simp)]

theorem primaryTerm_fraction {k : String} {i : Nat} {t : Str} {ray : ℝ × ℝ} {q : Request} (hq : ' ' ∉ q.element.toList) :
    primaryTerm pf fuel L c { o with useMassFractions := true } k i t ray q =
      keyFraction pf fuel L c k i * primaryTerm pf fuel L c { o with useMassFractions := false } k i t ray q := by
  unfold primaryTerm
  split
  · rw [mul_zero]
  · rename_i f hf
    dsimp only
    split
    · rename_i hh
      rw [keyFraction_eq hq hh.1.1, elementFraction_one]
      ring
    · rw [mul_zero]

theorem contribution_fraction {k : String} {i j : Nat} {t : Str} {q : Request} (hq : ' ' ∉ q.element.toList)
    (hk : q.element ++ " " ++ q.family = k) (thr eT e : ℝ) (s : Str × ℝ × ℝ) :
    contribution pf fuel L c { o with useMassFractions := true } q.element thr i j t eT e s =
      keyFraction pf fuel L c k i * contribution pf fuel L c { o with useMassFractions := false } q.element thr i j t eT e s := by
  unfold contribution
  split
  · rw [mul_zero]
  · split
    · rw [mul_zero]
    · split
      · rw [mul_zero]
      · rw [keyFraction_eq hq hk, elementFraction_one]
        ring

theorem list_sum_mul_left {α : Type} (a : ℝ) (l : List α) (F G : α → ℝ) (h : ∀ x ∈ l, F x = a * G x) :
    (l.map F).sum = a * (l.map G).sum := by
  induction l with
  | nil => simp
  | cons x l ih =>
    rw [List.map_cons, List.map_cons, List.sum_cons, List.sum_cons, ih (fun y hy => h y (List.mem_cons_of_mem _ hy)), h x List.mem_cons_self]
    ring

theorem secondaryTerm_fraction {k : String} {i : Nat} {t : Str} {P : Str → Prop} {ray : ℝ × ℝ} {q : Request} (hq : ' ' ∉ q.element.toList) :
    secondaryTerm pf fuel L srt c { o with useMassFractions := true } k i t P ray q =
      keyFraction pf fuel L c k i * secondaryTerm pf fuel L srt c { o with useMassFractions := false } k i t P ray q := by
  unfold secondaryTerm
  split
  · rw [mul_zero]
  · rename_i f hf
    dsimp only
    split
    · rename_i hh
      refine list_sum_mul_left _ _ _ _ (fun j _ => ?_)
      refine list_sum_mul_left _ _ _ _ (fun s _ => ?_)
      split
      · exact contribution_fraction hq hh.1.1 _ _ _ _
      · rw [mul_zero]
    · rw [mul_zero]

/-- **C176** A calculation without mass fractions returns the excitation per unit of mass fraction: each of its lines is returned with mass
fractions if its element has one in the layer, with primary excitation and secondary excitation from each source multiplied by it,
and with the same energy and efficiency (and, without tertiary excitation and detector material, with the rate multiplied by it). -/
theorem C176_per_fraction (hL : SoundLibrary pf fuel L) (reqs : List Request) (hp : ∀ q ∈ reqs, ' ' ∉ q.element.toList) (r r' : Result ℝ)
    (h : fluorescence pf fuel L srt c { o with useMassFractions := true } g b (reqs.map .ok) = .ok r)
    (h' : fluorescence pf fuel L srt c { o with useMassFractions := false } g b (reqs.map .ok) = .ok r')
    (k : String) (i : Nat) (t : Str) (ht : ' ' ∉ t) (l' : Leaf ℝ) (hl' : leaf? r' k i t = some l') :
    (l'.massFraction = 0 ∧ leaf? r k i t = none) ∨
    (l'.massFraction ≠ 0 ∧ ∃ l, leaf? r k i t = some l ∧ l.energy = l'.energy ∧ l.massFraction = l'.massFraction ∧
      l.primary = l'.massFraction * l'.primary ∧ l.secondary = l'.massFraction * l'.secondary ∧
      (∀ n, (l.contrib.find? n).getD 0 = l'.massFraction * (l'.contrib.find? n).getD 0) ∧ l.efficiency = l'.efficiency ∧
      (o.secondary ≤ 1 → c.detector.layer.hasMaterial = false → c.detector.layer.materialName = "" →
        l.rate = l'.massFraction * l'.rate)) := by
  have hm : l'.massFraction = keyFraction pf fuel L c k i :=
    C85_mass_fraction pf fuel L srt c _ g hL reqs hp b r' h' k i t l' ht hl'
  have hpres : (leaf? r k i t).isSome ↔ l'.massFraction ≠ 0 := by
    rw [hm, C72_lines pf fuel L srt c _ g hL reqs b r h k i t ht]
    constructor
    · rintro ⟨ray, a1, q, a2, f, a3, a4, a5, a6, a7⟩
      rwa [keyFraction_eq (hp q a2) a5.1] at a7
    · intro hne
      have h1 : (leaf? r' k i t).isSome := by rw [hl']; rfl
      rw [C72_lines pf fuel L srt c _ g hL reqs b r' h' k i t ht] at h1
      obtain ⟨ray, a1, q, a2, f, a3, a4, a5, a6, a7⟩ := h1
      exact ⟨ray, a1, q, a2, f, a3, a4, a5, a6, by rwa [keyFraction_eq (hp q a2) a5.1]⟩
  by_cases hz : l'.massFraction = 0
  · left
    refine ⟨hz, ?_⟩
    cases hl : leaf? r k i t with
    | none => rfl
    | some l => exact absurd hz (hpres.1 (by rw [hl]; rfl))
  right
  refine ⟨hz, ?_⟩
  obtain ⟨l, hl⟩ := Option.isSome_iff_exists.1 (hpres.2 hz)
  have hpr : l.primary = l'.massFraction * l'.primary := by
    have h1 := C71_primary pf fuel L srt c _ g hL reqs hp b r h k i t ht
    have h2 := C71_primary pf fuel L srt c _ g hL reqs hp b r' h' k i t ht
    rw [hl] at h1
    rw [hl'] at h2
    simp only [Option.map_some, Option.getD_some] at h1 h2
    rw [h1, h2, hm]
    exact list_sum_mul_left _ _ _ _ (fun ray _ => list_sum_mul_left _ _ _ _ (fun q hq => primaryTerm_fraction (hp q hq)))
  have hse : l.secondary = l'.massFraction * l'.secondary := by
    have h1 := C84_secondary pf fuel L srt c _ g hL reqs hp b r h k i t ht
    have h2 := C84_secondary pf fuel L srt c _ g hL reqs hp b r' h' k i t ht
    rw [hl] at h1
    rw [hl'] at h2
    simp only [Option.map_some, Option.getD_some] at h1 h2
    rw [h1, h2, hm]
    exact list_sum_mul_left _ _ _ _ (fun ray _ => list_sum_mul_left _ _ _ _ (fun q hq => secondaryTerm_fraction (hp q hq)))
  have heff := efficiency_unique hL hp hp h' h ht hl' hl
  refine ⟨l, hl, same_energy hL hp hp h h' ht hl hl', ?_, hpr, hse, ?_, heff, ?_⟩
  · rw [hm]
    exact C85_mass_fraction pf fuel L srt c _ g hL reqs hp b r h k i t l ht hl
  · intro n
    have h1 := C84_by_source pf fuel L srt c _ g hL reqs hp b r h k i t ht n
    have h2 := C84_by_source pf fuel L srt c _ g hL reqs hp b r' h' k i t ht n
    rw [hl] at h1
    rw [hl'] at h2
    simp only [Option.map_some, Option.getD_some] at h1 h2
    rw [h1, h2, hm]
    exact list_sum_mul_left _ _ _ _ (fun ray _ => list_sum_mul_left _ _ _ _ (fun q hq => secondaryTerm_fraction (hp q hq)))
  · intro ho d1 d2
    have e1 := (C47_api pf fuel L srt c { o with useMassFractions := true } g hL (fun hh => absurd hh (not_lt.2 ho)) b _ r h k i t ht l hl).2.2 d1 d2
    have e2 := (C47_api pf fuel L srt c { o with useMassFractions := false } g hL (fun hh => absurd hh (not_lt.2 ho)) b _ r' h' k i t ht l' hl').2.2 d1 d2
    rw [e1, e2, hpr, hse, heff, C85_none pf fuel L srt c _ g hL reqs hp b r h ho k i t l ht hl,
      C85_none pf fuel L srt c _ g hL reqs hp b r' h' ho k i t l' ht hl']
    ring

/-- **C176** (converse) Each line returned with mass fractions is returned without them. -/
theorem C176_all (hL : SoundLibrary pf fuel L) (reqs : List Request) (r r' : Result ℝ)
    (h : fluorescence pf fuel L srt c { o with useMassFractions := true } g b (reqs.map .ok) = .ok r)
    (h' : fluorescence pf fuel L srt c { o with useMassFractions := false } g b (reqs.map .ok) = .ok r')
    (k : String) (i : Nat) (t : Str) (ht : ' ' ∉ t) (hl : (leaf? r k i t).isSome) : (leaf? r' k i t).isSome := by
  rw [C72_lines pf fuel L srt c _ g hL reqs b r h k i t ht] at hl
  rw [C72_lines pf fuel L srt c _ g hL reqs b r' h' k i t ht]
  obtain ⟨ray, a1, q, a2, f, a3, a4, a5, a6, a7⟩ := hl
  exact ⟨ray, a1, q, a2, f, a3, a4, a5, a6, by rw [elementFraction_one]; norm_num⟩

/-- **C177** Asking for secondary (or tertiary) excitation, or choosing which lines are considered for it, changes neither the lines nor their
energies, primary excitation, mass fractions and efficiencies; and without asking for it there is none. -/
theorem C177_only_added (hL : SoundLibrary pf fuel L) (o o' : Options ℝ) (hm : o'.useMassFractions = o.useMassFractions) (reqs : List Request)
    (hp : ∀ q ∈ reqs, ' ' ∉ q.element.toList) (r r' : Result ℝ)
    (h : fluorescence pf fuel L srt c o g b (reqs.map .ok) = .ok r)
    (h' : fluorescence pf fuel L srt c o' g b (reqs.map .ok) = .ok r')
    (k : String) (i : Nat) (t : Str) (ht : ' ' ∉ t) :
    (leaf? r k i t = none ∧ leaf? r' k i t = none) ∨
    ∃ l l', leaf? r k i t = some l ∧ leaf? r' k i t = some l' ∧ l'.energy = l.energy ∧ l'.primary = l.primary ∧
      l'.massFraction = l.massFraction ∧ l'.efficiency = l.efficiency ∧
      (o.secondary ≤ 0 → l.secondary = 0 ∧ l.tertiary = 0 ∧ ∀ n, (l.contrib.find? n).getD 0 = 0) := by
  have hfr : ∀ i el, elementFraction pf fuel L c o' i el = elementFraction pf fuel L c o i el := by
    intro i el
    unfold elementFraction
    rw [hm]
  have hiff : (leaf? r k i t).isSome ↔ (leaf? r' k i t).isSome := by
    rw [C72_lines pf fuel L srt c o g hL reqs b r h k i t ht, C72_lines pf fuel L srt c o' g hL reqs b r' h' k i t ht]
    simp only [hfr]
  refine both hiff (fun l l' hl hl' => ?_)
  refine ⟨(same_energy hL hp hp h h' ht hl hl').symm, ?_, ?_, efficiency_unique hL hp hp h h' ht hl hl', ?_⟩
  · have h1 := C71_primary pf fuel L srt c o g hL reqs hp b r h k i t ht
    have h2 := C71_primary pf fuel L srt c o' g hL reqs hp b r' h' k i t ht
    rw [hl] at h1
    rw [hl'] at h2
    simp only [Option.map_some, Option.getD_some] at h1 h2
    rw [h1, h2]
    unfold primaryTerm
    simp only [hfr]
  · rw [C85_mass_fraction pf fuel L srt c o g hL reqs hp b r h k i t l ht hl,
      C85_mass_fraction pf fuel L srt c o' g hL reqs hp b r' h' k i t l' ht hl']
  · intro ho
    have hz : ∀ P, ((usedBeam c b).map (fun ray => (reqs.map
        (secondaryTerm pf fuel L srt c o k i t P (behind pf fuel L c ray))).sum)).sum = 0 := by
      intro P
      have hfun : ∀ ray, secondaryTerm pf fuel L srt c o k i t P ray = fun _ => 0 :=
        fun ray => funext (fun q => C84_none pf fuel L srt c o (not_lt.2 ho) k i t P ray q)
      simp [hfun]
    have h1 := C84_secondary pf fuel L srt c o g hL reqs hp b r h k i t ht
    rw [hl, hz] at h1
    refine ⟨h1, C85_none pf fuel L srt c o g hL reqs hp b r h (by omega) k i t l ht hl, fun n => ?_⟩
    have h2 := C84_by_source pf fuel L srt c o g hL reqs hp b r h k i t ht n
    rw [hl, hz] at h2
    exact h2

/-! ## Cases -/

/-- `C176_per_fraction`: iron with and without its mass fraction; both calculations return, with the line. -/
theorem fe_fraction (fuel : Nat) (srt : List (String × ℝ) → List (String × ℝ)) (hs : Library.SortsByEnergy srt) (limit : ℝ) :
    ∃ r r' l l', fluorescence feParser (fuel + 1) feLibrary srt (feStack [] [Layer.new "Fe" 8 1 1] []) ⟨0, true, limit⟩ false Beam.new
        [.ok ⟨"Fe", "K", -1⟩] = .ok r ∧
      fluorescence feParser (fuel + 1) feLibrary srt (feStack [] [Layer.new "Fe" 8 1 1] []) ⟨0, false, limit⟩ false Beam.new
        [.ok ⟨"Fe", "K", -1⟩] = .ok r' ∧
      leaf? r "Fe K" 0 "KL3".toList = some l ∧ leaf? r' "Fe K" 0 "KL3".toList = some l' ∧ l'.massFraction ≠ 0 ∧
      l.primary = l'.massFraction * l'.primary ∧ l.rate = l'.massFraction * l'.rate := by
  obtain ⟨r, hr⟩ := feStack_returns fuel hs limit Beam.new [] [Layer.new "Fe" 8 1 1] [] (by simp [Layer.new])
  obtain ⟨r', hr'⟩ := C77_returns feResponds (feStackReady fuel [] [Layer.new "Fe" 8 1 1] [] (by simp [Layer.new])) hs
    ⟨0, false, limit⟩ (le_refl _) Beam.new [⟨"Fe", "K", -1⟩] (by simp [feKnown])
  obtain ⟨l, hl⟩ := feStack_lines fuel hr 0 _ rfl rfl rfl
  obtain ⟨l', hl'⟩ := Option.isSome_iff_exists.1 (C176_all (o := ⟨0, true, limit⟩) (feSound _ _) [⟨"Fe", "K", -1⟩] r r' hr hr' "Fe K" 0
    "KL3".toList (by decide) (by rw [hl]; rfl))
  rcases C176_per_fraction (o := ⟨0, true, limit⟩) (feSound _ _) [⟨"Fe", "K", -1⟩] (by simp) r r' hr hr' "Fe K" 0 "KL3".toList
    (by decide) l' hl' with ⟨-, h4⟩ | ⟨h3, n, h4, -, -, h5, -, -, -, h6⟩
  · rw [hl] at h4; cases h4
  · rw [hl] at h4
    cases h4
    refine ⟨r, r', l, l', hr, hr', hl, hl', h3, h5, h6 (by norm_num) ?_ ?_⟩
    · simp [feStack, feConfig, Config.new, Config.defaultDetector, Detector.new, Layer.new]
    · simp [feStack, feConfig, Config.new, Config.defaultDetector, Detector.new, Layer.new]

/-- `C177_only_added`: iron without and with tertiary excitation; both calculations return, with the line. -/
theorem fe_added (fuel : Nat) (srt : List (String × ℝ) → List (String × ℝ)) (hs : Library.SortsByEnergy srt) (limit limit' : ℝ) :
    ∃ r r' l l', fluorescence feParser (fuel + 1) feLibrary srt feConfig ⟨0, true, limit⟩ true Beam.new [.ok ⟨"Fe", "K", 0⟩] = .ok r ∧
      fluorescence feParser (fuel + 1) feLibrary srt feConfig ⟨2, true, limit'⟩ true Beam.new [.ok ⟨"Fe", "K", 0⟩] = .ok r' ∧
      leaf? r "Fe K" 0 "KL3".toList = some l ∧ leaf? r' "Fe K" 0 "KL3".toList = some l' ∧ l'.primary = l.primary ∧
      l'.efficiency = l.efficiency ∧ l.secondary = 0 ∧ l.tertiary = 0 := by
  obtain ⟨r, h1, h2⟩ := fe_result fuel srt hs limit
  obtain ⟨r', h1', h2', -, -⟩ := fe_result_secondary fuel srt hs limit' 2 (by norm_num)
  rcases C177_only_added (feSound _ _) ⟨0, true, limit⟩ ⟨2, true, limit'⟩ rfl [⟨"Fe", "K", 0⟩] (by simp) r r' h1 h1' "Fe K" 0 "KL3".toList
    (by decide) with ⟨h3, -⟩ | ⟨l, l', h3, h4, -, h5, -, h6, h7⟩
  · rw [h3] at h2; cases h2
  · exact ⟨r, r', l, l', h1, h1', h3, h4, h5, h6, (h7 (le_refl _)).1, (h7 (le_refl _)).2.1⟩

end Multilayer
end Fisx
