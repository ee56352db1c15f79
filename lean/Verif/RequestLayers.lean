import Verif.MorePhotons

/-!
# C175: the layer of a request only selects
-/

set_option linter.unusedSectionVars false

namespace Fisx
namespace Multilayer

open Xrf (Request)

/-! ## Specification -/

/-- The request is for this layer: it names the layer, or all of them by a negative number. -/
def Concerns (q : Request) (i : Nat) : Prop := q.layer < 0 ∨ q.layer = (i : Int)

/-- The same element and family, and for layer `i` both or none of them. -/
structure SameFor (i : Nat) (q q' : Request) : Prop where
  element : q'.element = q.element
  family : q'.family = q.family
  layer : Concerns q' i ↔ Concerns q i

variable {R : Type} {pf : String → Outcome (SMap String ℝ)} {fuel : Nat} {L : Library ℝ}
  {srt : List (String × ℝ) → List (String × ℝ)} {c : Config ℝ R} {o : Options ℝ} {g : Bool} {b : Beam ℝ}

theorem asked_same {i : Nat} {q q' : Request} (h : SameFor i q q') (k : String) (t : Str) (e : ℝ) :
    Asked L q' k i t e ↔ Asked L q k i t e := by
  unfold Asked
  have := h.layer
  unfold Concerns at this
  rw [h.element, h.family, this]

theorem primaryTerm_sameFor {i : Nat} {q q' : Request} (h : SameFor i q q') (k : String) (t : Str) (ray : ℝ × ℝ) :
    primaryTerm pf fuel L c o k i t ray q' = primaryTerm pf fuel L c o k i t ray q := by
  unfold primaryTerm
  have ha : Asked L q' k i t ray.1 = Asked L q k i t ray.1 := propext (asked_same h k t _)
  rw [h.element, ha]

theorem secondaryTerm_sameFor {i : Nat} {q q' : Request} (h : SameFor i q q') (k : String) (t : Str) (P : Str → Prop) (ray : ℝ × ℝ) :
    secondaryTerm pf fuel L srt c o k i t P ray q' = secondaryTerm pf fuel L srt c o k i t P ray q := by
  unfold secondaryTerm
  have ha : Asked L q' k i t ray.1 = Asked L q k i t ray.1 := propext (asked_same h k t _)
  rw [h.element, h.family, ha]

theorem map_same {i : Nat} {F : Request → ℝ} (hF : ∀ q q', SameFor i q q' → F q' = F q) {reqs reqs' : List Request}
    (h : List.Forall₂ (SameFor i) reqs reqs') : reqs'.map F = reqs.map F := by
  induction h with
  | nil => rfl
  | cons a _ ih => rw [List.map_cons, List.map_cons, ih, hF _ _ a]

/-- The efficiency of a line in a layer does not depend on what was requested. -/
theorem efficiency_unique (hL : SoundLibrary pf fuel L) {o o' : Options ℝ} {srt srt' : List (String × ℝ) → List (String × ℝ)}
    {reqs reqs' : List Request} (hp : ∀ q ∈ reqs, ' ' ∉ q.element.toList)
    (hp' : ∀ q ∈ reqs', ' ' ∉ q.element.toList) {b b' : Beam ℝ} {r r' : Result ℝ}
    (h : fluorescence pf fuel L srt c o g b (reqs.map .ok) = .ok r)
    (h' : fluorescence pf fuel L srt' c o' g b' (reqs'.map .ok) = .ok r') {k : String} {i : Nat} {t : Str} (ht : ' ' ∉ t)
    {l l' : Leaf ℝ} (hl : leaf? r k i t = some l) (hl' : leaf? r' k i t = some l') : l'.efficiency = l.efficiency := by
  have he := same_energy hL hp hp' h h' ht hl hl'
  obtain ⟨T, A, q, d, h1, h2, h3, h4, h5⟩ := C73_efficiency pf fuel L srt c o g hL reqs hp b r h k i t ht l hl
  obtain ⟨T', A', q', d', h1', h2', h3', h4', h5'⟩ := C73_efficiency pf fuel L srt' c o' g hL reqs' hp' b' r' h' k i t ht l' hl'
  rw [← he] at h1' h2' h4' h5'
  rw [h3] at h3'
  rw [h4] at h4'
  cases h3'
  cases h4'
  have hT : (List.range i).map T' = (List.range i).map T := by
    apply List.map_congr_left
    intro j hj
    obtain ⟨lj, s1, s2⟩ := h1 j (List.mem_range.1 hj)
    obtain ⟨lj', s1', s2'⟩ := h1' j (List.mem_range.1 hj)
    rw [s1] at s1'
    cases s1'
    rw [s2] at s2'
    exact (Outcome.ok.inj s2').symm
  have hA : A' = A := by
    clear h5 h5'
    generalize c.attenuators = as at h2 h2'
    induction h2 generalizing A' with
    | nil => cases h2'; rfl
    | cons a _ ih =>
      cases h2' with
      | cons a' b' =>
        rw [ih _ b']
        rw [a] at a'
        rw [Outcome.ok.inj a']
  rw [h5, h5', hT, hA]

/-- **C175** Of the layer numbers of the requests only whether they include a layer matters for that layer: with other numbers that include it in
the same requests, the same lines are returned for it, with the same energies, primary excitation, secondary excitation from each
source, mass fraction and efficiency, and without detector material and tertiary excitation with the same rate. -/
theorem C175_layer (hL : SoundLibrary pf fuel L) (i : Nat) (reqs reqs' : List Request) (hr : List.Forall₂ (SameFor i) reqs reqs')
    (hp : ∀ q ∈ reqs, ' ' ∉ q.element.toList) (r r' : Result ℝ)
    (h : fluorescence pf fuel L srt c o g b (reqs.map .ok) = .ok r)
    (h' : fluorescence pf fuel L srt c o g b (reqs'.map .ok) = .ok r') (k : String) (t : Str) (ht : ' ' ∉ t) :
    (leaf? r k i t = none ∧ leaf? r' k i t = none) ∨
    ∃ l l', leaf? r k i t = some l ∧ leaf? r' k i t = some l' ∧ l'.energy = l.energy ∧ l'.primary = l.primary ∧
      l'.secondary = l.secondary ∧ (∀ n, (l'.contrib.find? n).getD 0 = (l.contrib.find? n).getD 0) ∧
      l'.massFraction = l.massFraction ∧ l'.efficiency = l.efficiency ∧
      (o.secondary ≤ 1 → c.detector.layer.hasMaterial = false → c.detector.layer.materialName = "" → l'.rate = l.rate) := by
  have hp' : ∀ q ∈ reqs', ' ' ∉ q.element.toList := by
    intro q hq
    obtain ⟨q0, x1, x2⟩ := forall₂_right hr hq
    rw [x2.element]
    exact hp q0 x1
  have hiff : (leaf? r k i t).isSome ↔ (leaf? r' k i t).isSome := by
    rw [C72_lines pf fuel L srt c o g hL reqs b r h k i t ht, C72_lines pf fuel L srt c o g hL reqs' b r' h' k i t ht]
    constructor
    · rintro ⟨ray, a1, q, a2, f, a3, a4, a5, a6, a7⟩
      obtain ⟨q', y1, y2⟩ := forall₂_right (List.Forall₂.flip hr) a2
      exact ⟨ray, a1, q', y1, f, by rw [y2.element]; exact a3, a4, (asked_same y2 k t _).2 a5, a6, by rw [y2.element]; exact a7⟩
    · rintro ⟨ray, a1, q', a2, f, a3, a4, a5, a6, a7⟩
      obtain ⟨q, y1, y2⟩ := forall₂_right hr a2
      exact ⟨ray, a1, q, y1, f, by rw [← y2.element]; exact a3, a4, (asked_same y2 k t _).1 a5, a6, by rw [← y2.element]; exact a7⟩
  refine both hiff (fun l l' hl hl' => ?_)
  have hpr : l'.primary = l.primary := by
    have h1 := C71_primary pf fuel L srt c o g hL reqs hp b r h k i t ht
    have h2 := C71_primary pf fuel L srt c o g hL reqs' hp' b r' h' k i t ht
    rw [hl] at h1
    rw [hl'] at h2
    simp only [Option.map_some, Option.getD_some] at h1 h2
    rw [h1, h2]
    congr 1
    apply List.map_congr_left
    intro ray _
    rw [map_same (fun q q' hq => primaryTerm_sameFor hq k t _) hr]
  have hse : l'.secondary = l.secondary := by
    have h1 := C84_secondary pf fuel L srt c o g hL reqs hp b r h k i t ht
    have h2 := C84_secondary pf fuel L srt c o g hL reqs' hp' b r' h' k i t ht
    rw [hl] at h1
    rw [hl'] at h2
    simp only [Option.map_some, Option.getD_some] at h1 h2
    rw [h1, h2]
    congr 1
    apply List.map_congr_left
    intro ray _
    rw [map_same (fun q q' hq => secondaryTerm_sameFor hq k t _ _) hr]
  have heff := efficiency_unique hL hp hp' h h' ht hl hl'
  refine ⟨(same_energy hL hp hp' h h' ht hl hl').symm, hpr, hse, ?_, ?_, heff, ?_⟩
  · intro n
    have h1 := C84_by_source pf fuel L srt c o g hL reqs hp b r h k i t ht n
    have h2 := C84_by_source pf fuel L srt c o g hL reqs' hp' b r' h' k i t ht n
    rw [hl] at h1
    rw [hl'] at h2
    simp only [Option.map_some, Option.getD_some] at h1 h2
    rw [h1, h2]
    congr 1
    apply List.map_congr_left
    intro ray _
    rw [map_same (fun q q' hq => secondaryTerm_sameFor hq k t _ _) hr]
  · rw [C85_mass_fraction pf fuel L srt c o g hL reqs hp b r h k i t l ht hl,
      C85_mass_fraction pf fuel L srt c o g hL reqs' hp' b r' h' k i t l' ht hl']
  · intro ho d1 d2
    have e1 := (C47_api pf fuel L srt c o g hL (fun hh => absurd hh (not_lt.2 ho)) b _ r h k i t ht l hl).2.2 d1 d2
    have e2 := (C47_api pf fuel L srt c o g hL (fun hh => absurd hh (not_lt.2 ho)) b _ r' h' k i t ht l' hl').2.2 d1 d2
    rw [e1, e2, hpr, hse, heff, C85_none pf fuel L srt c o g hL reqs hp b r h ho k i t l ht hl,
      C85_none pf fuel L srt c o g hL reqs' hp' b r' h' ho k i t l' ht hl']

/-- **C175** (other layers) Nothing is returned for a line in a layer no request for it includes. -/
theorem C175_only (hL : SoundLibrary pf fuel L) (i : Nat) (reqs : List Request) (k : String)
    (hi : ∀ q ∈ reqs, q.element ++ " " ++ q.family = k → ¬ Concerns q i) (r : Result ℝ)
    (h : fluorescence pf fuel L srt c o g b (reqs.map .ok) = .ok r) (t : Str) (ht : ' ' ∉ t) : leaf? r k i t = none := by
  cases hl : leaf? r k i t with
  | none => rfl
  | some l =>
    have : (leaf? r k i t).isSome := by rw [hl]; rfl
    rw [C72_lines pf fuel L srt c o g hL reqs b r h k i t ht] at this
    obtain ⟨ray, a1, q, a2, f, a3, a4, a5, a6, a7⟩ := this
    exact absurd a5.2.1 (hi q a2 a5.1)

/-- **C175** (no such layer) A request for a layer the sample does not have gives nothing. -/
theorem C175_absent (hL : SoundLibrary pf fuel L) (i : Nat) (hi : c.sample.length ≤ i) (reqs : List Request) (k : String) (r : Result ℝ)
    (h : fluorescence pf fuel L srt c o g b (reqs.map .ok) = .ok r) (t : Str) (ht : ' ' ∉ t) : leaf? r k i t = none := by
  cases hl : leaf? r k i t with
  | none => rfl
  | some l =>
    have : (leaf? r k i t).isSome := by rw [hl]; rfl
    rw [C72_lines pf fuel L srt c o g hL reqs b r h k i t ht] at this
    obtain ⟨ray, a1, q, a2, f, a3, a4, a5, a6, a7⟩ := this
    omega

/-! ## Cases -/

/-- `C175_layer`, `C175_only`, `C175_absent`: two layers of iron; all layers against the second one. -/
theorem fe_request_layers (fuel : Nat) (srt : List (String × ℝ) → List (String × ℝ)) (hs : Library.SortsByEnergy srt) (limit : ℝ) :
    ∃ r r' l l' m, fluorescence feParser (fuel + 1) feLibrary srt (feStack [] [Layer.new "Fe" 8 1 1, Layer.new "Fe" 8 3 1] [])
        ⟨0, true, limit⟩ false Beam.new [.ok ⟨"Fe", "K", -1⟩] = .ok r ∧
      fluorescence feParser (fuel + 1) feLibrary srt (feStack [] [Layer.new "Fe" 8 1 1, Layer.new "Fe" 8 3 1] [])
        ⟨0, true, limit⟩ false Beam.new [.ok ⟨"Fe", "K", 1⟩] = .ok r' ∧
      leaf? r "Fe K" 1 "KL3".toList = some l ∧ leaf? r' "Fe K" 1 "KL3".toList = some l' ∧ l'.rate = l.rate ∧
      leaf? r "Fe K" 0 "KL3".toList = some m ∧ leaf? r' "Fe K" 0 "KL3".toList = none ∧
      leaf? r "Fe K" 2 "KL3".toList = none := by
  obtain ⟨r, hr⟩ := feStack_returns fuel hs limit Beam.new [] [Layer.new "Fe" 8 1 1, Layer.new "Fe" 8 3 1] [] (by simp [Layer.new])
  obtain ⟨r', hr'⟩ := C77_returns feResponds (feStackReady fuel [] [Layer.new "Fe" 8 1 1, Layer.new "Fe" 8 3 1] [] (by simp [Layer.new])) hs
    ⟨0, true, limit⟩ (le_refl _) Beam.new [⟨"Fe", "K", 1⟩] (by simp [feKnown])
  obtain ⟨l, hl⟩ := feStack_lines fuel hr 1 _ rfl rfl rfl
  obtain ⟨m, hm⟩ := feStack_lines fuel hr 0 _ rfl rfl rfl
  have h1 := C175_layer (feSound _ _) 1 [⟨"Fe", "K", -1⟩] [⟨"Fe", "K", 1⟩]
    (List.Forall₂.cons ⟨rfl, rfl, by simp [Concerns]⟩ List.Forall₂.nil) (by simp) r r' hr hr' "Fe K" "KL3".toList (by decide)
  rcases h1 with ⟨h4, -⟩ | ⟨n, n', h4, h5, -, -, -, -, -, -, h6⟩
  · rw [hl] at h4; cases h4
  · rw [hl] at h4
    cases h4
    refine ⟨r, r', l, n', m, hr, hr', hl, h5, h6 (by norm_num) ?_ ?_, hm,
      C175_only (feSound _ _) 0 [⟨"Fe", "K", 1⟩] "Fe K" (by simp [Concerns]) r' hr' "KL3".toList (by decide),
      C175_absent (feSound _ _) 2 (by simp [feStack]) [⟨"Fe", "K", -1⟩] "Fe K" r hr "KL3".toList (by decide)⟩
    · simp [feStack, feConfig, Config.new, Config.defaultDetector, Detector.new, Layer.new]
    · simp [feStack, feConfig, Config.new, Config.defaultDetector, Detector.new, Layer.new]

end Multilayer
end Fisx
