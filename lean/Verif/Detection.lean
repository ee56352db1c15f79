import Verif.Bare

/-!
# C162: what is between the sample and the detector only scales what is detected
-/

set_option linter.unusedSectionVars false

namespace Fisx
namespace Multilayer

open Xrf (Request)

variable {R : Type} {pf : String → Outcome (SMap String ℝ)} {fuel : Nat} {L : Library ℝ}
  {srt : List (String × ℝ) → List (String × ℝ)} {c c' : Config ℝ R} {o : Options ℝ} {g g' : Bool} {b : Beam ℝ}

/-- Two configurations that differ at most in the attenuators, the user attenuators, the reference layer and the size, distance,
density and thickness of the detector (but not in what its escape peaks depend on). -/
structure OtherDetection (c c' : Config ℝ R) : Prop where
  rest : c' = { c with attenuators := c'.attenuators, userAttenuators := c'.userAttenuators, referenceLayer := c'.referenceLayer,
                       detector := c'.detector }
  escape : c'.detector.params = c.detector.params

theorem geometricLoop_length : ∀ (ls : List (Layer ℝ)) (i : Nat) {gs : List ℝ}, geometricLoop c g i ls = .ok gs → gs.length = ls.length
  | [], _, gs, h => by cases h; rfl
  | l :: ls, i, gs, h => by
    unfold geometricLoop at h
    obtain ⟨a, -, h⟩ := Outcome.bind_eq_ok.mp h
    obtain ⟨r, h1, h⟩ := Outcome.bind_eq_ok.mp h
    cases h
    simp [geometricLoop_length ls _ h1]

theorem compositions_length : ∀ (ls : List (Layer ℝ)) {ms : List (SMap String ℝ)}, compositions pf fuel L c ls = .ok ms →
    ms.length = ls.length
  | [], _, h => by cases h; rfl
  | l :: ls, _, h => by
    unfold compositions at h
    obtain ⟨a, -, h⟩ := Outcome.bind_eq_ok.mp h
    obtain ⟨r, h1, h⟩ := Outcome.bind_eq_ok.mp h
    cases h
    simp [compositions_length ls h1]

theorem compositions_other (h : OtherDetection c c') : ∀ ls : List (Layer ℝ),
    compositions pf fuel L c' ls = compositions pf fuel L c ls
  | [] => rfl
  | l :: ls => by
    unfold compositions
    rw [compositions_other h ls]
    have : layerComposition pf fuel L c' l = layerComposition pf fuel L c l := by rw [h.rest]; rfl
    rw [this]

theorem behind_other (h : OtherDetection c c') (ray : ℝ × ℝ) : behind pf fuel L c' ray = behind pf fuel L c ray := by
  have hff : ∀ (ls : List (Layer ℝ)) e, filterFactor pf fuel L c' ls e = filterFactor pf fuel L c ls e := by
    intro ls e
    induction ls with
    | nil => rfl
    | cons x ls ih =>
      rw [filterFactor, filterFactor, ih]
      have : layerTransmission pf fuel L c' x e 90 [] = layerTransmission pf fuel L c x e 90 [] := by rw [h.rest]; rfl
      rw [this]
  unfold behind passing
  rw [hff]
  have h1 : c'.beamFilters = c.beamFilters := by rw [h.rest]
  have h2 : c'.userBeamFilters = c.userBeamFilters := by rw [h.rest]
  rw [h1, h2]

theorem layerData_still : ∀ (ls : List (Layer ℝ)) (ms : List (SMap String ℝ)) (gs gs' : List ℝ), gs.length = gs'.length →
    (layerData ls ms gs).map LayerData.still = (layerData ls ms gs').map LayerData.still
  | [], _, _, _, _ => by unfold layerData; simp
  | l :: ls, [], _, _, _ => by unfold layerData; simp
  | l :: ls, m :: ms, [], [], _ => by unfold layerData; simp
  | l :: ls, m :: ms, [], _ :: _, h => by simp at h
  | l :: ls, m :: ms, _ :: _, [], h => by simp at h
  | l :: ls, m :: ms, q :: gs, q' :: gs', h => by
    have := layerData_still ls ms gs gs' (by simpa using h)
    unfold layerData at this ⊢
    simp only [List.zip_cons_cons, List.zipWith_cons_cons, List.map_cons, this]

theorem still_other (h : OtherDetection c c') (comps : List (SMap String ℝ)) {geoms geoms' : List ℝ}
    (hg : geoms.length = geoms'.length) :
    still (envOf pf fuel L srt c' comps geoms') = still (envOf pf fuel L srt c comps geoms) := by
  have hdet : (c'.detector.layer.hasMaterial || decide (c'.detector.layer.materialName.length > 0)) =
      (c.detector.layer.hasMaterial || decide (c.detector.layer.materialName.length > 0)) := by
    have he := h.escape
    unfold Detector.params at he
    simp only [Detector.EscapeParams.mk.injEq] at he
    obtain ⟨e1, e2, -⟩ := he
    rw [e1] at e2 ⊢
    cases hm : c.detector.layer.hasMaterial with
    | true => rfl
    | false =>
      rw [hm] at e2
      simp only [Bool.false_eq_true, if_false] at e2
      rw [e2]
  have hl : (layerData c'.sample comps geoms').map LayerData.still = (layerData c.sample comps geoms).map LayerData.still := by
    have : c'.sample = c.sample := by rw [h.rest]
    rw [this, layerData_still _ _ _ _ hg]
  unfold still envOf
  dsimp only
  rw [hl, hdet, h.escape]
  have hrest := h.rest
  have h1 : c'.sample = c.sample := by rw [hrest]
  have h2 : c'.alphaIn = c.alphaIn := by rw [hrest]
  have h3 : c'.alphaOut = c.alphaOut := by rw [hrest]
  have h4 : ∀ l e m, layerMu pf fuel L c' l e m = layerMu pf fuel L c l e m := by rw [hrest]; intros; rfl
  have h5 : ∀ l e m, layerMus pf fuel L c' l e m = layerMus pf fuel L c l e m := by rw [hrest]; intros; rfl
  have h6 : ∀ l e m, layerFamilies pf fuel L srt c' l e m = layerFamilies pf fuel L srt c l e m := by rw [hrest]; intros; rfl
  simp only [h1, h2, h3, h4, h5, h6]

/-- The results without what concerns the detection are the same. -/
theorem bare_other (hc : OtherDetection c c') {reqs : List (Outcome Request)} {r r' : Result ℝ}
    (h : fluorescence pf fuel L srt c o g b reqs = .ok r) (h' : fluorescence pf fuel L srt c' o g' b reqs = .ok r') :
    bare r = bare r' := by
  obtain ⟨comps, geoms, h1, h2, h3⟩ := fluorescence_ok h
  obtain ⟨comps', geoms', h1', h2', h3'⟩ := fluorescence_ok h'
  have hs : c'.sample = c.sample := by rw [hc.rest]
  rw [hs, compositions_other hc, h1] at h1'
  cases h1'
  obtain ⟨r0, e1, e2⟩ := calculate_still _ o reqs _ _ h3
  obtain ⟨r1, e3, e4⟩ := calculate_still _ o reqs _ _ h3'
  rw [hs] at h2'
  have hb : (usedBeam c' b).map (behind pf fuel L c') = (usedBeam c b).map (behind pf fuel L c) := by
    have hu : usedBeam c' b = usedBeam c b := by unfold usedBeam; rw [hc.rest]
    rw [hu]
    exact List.map_congr_left fun ray _ => behind_other hc ray
  rw [still_other hc comps (geoms := geoms) (by rw [geometricLoop_length _ _ h2, geometricLoop_length _ _ h2']), hb, e1] at e3
  cases e3
  rw [e2, e4]

/-- **C162** Whatever is between the sample and the detector, and the size, place and thickness of the detector, do not change the
lines found, nor their energies, primary, secondary and tertiary excitation, sources and mass fractions; only efficiencies and rates. -/
theorem C162_excitation (hc : OtherDetection c c') (reqs : List (Outcome Request)) (r r' : Result ℝ)
    (h : fluorescence pf fuel L srt c o g b reqs = .ok r) (h' : fluorescence pf fuel L srt c' o g' b reqs = .ok r')
    (k : String) (i : Nat) (t : Str) :
    (leaf? r k i t = none ∧ leaf? r' k i t = none) ∨
    ∃ l l', leaf? r k i t = some l ∧ leaf? r' k i t = some l' ∧ l' = { l with efficiency := l'.efficiency, rate := l'.rate } := by
  have := bare_leaf_eq (bare_other hc h h') k i t
  cases h1 : leaf? r k i t with
  | none =>
    cases h2 : leaf? r' k i t with
    | none => exact Or.inl ⟨rfl, rfl⟩
    | some _ => rw [h1, h2] at this; cases this
  | some l =>
    cases h2 : leaf? r' k i t with
    | none => rw [h1, h2] at this; cases this
    | some l' =>
      refine Or.inr ⟨l, l', rfl, rfl, ?_⟩
      rw [h1, h2] at this
      simp only [Option.map_some, Option.some.injEq] at this
      obtain ⟨e1, e2, e3, e4, e5, e6, e7, e8, e9⟩ := bare_ext this
      obtain ⟨a1, a2, a3, a4, a5, a6, a7, a8, a9, a10, a11⟩ := l
      obtain ⟨b1, b2, b3, b4, b5, b6, b7, b8, b9, b10, b11⟩ := l'
      dsimp only at e1 e2 e3 e4 e5 e6 e7 e8 e9
      subst e1 e2 e3 e4 e5 e6 e7 e8 e9
      rfl

/-- **C162** The rates of a line and of its escape peaks are proportional to the efficiency of the line. -/
theorem C162_rates (hL : SoundLibrary pf fuel L) (hd : o.secondary > 1 → 0 ≤ c.detector.intensityThreshold)
    (hc : OtherDetection c c') (reqs : List (Outcome Request)) (r r' : Result ℝ)
    (h : fluorescence pf fuel L srt c o g b reqs = .ok r) (h' : fluorescence pf fuel L srt c' o g' b reqs = .ok r')
    (k : String) (i : Nat) (t : Str) (ht : ' ' ∉ t) (l l' : Leaf ℝ) (hl : leaf? r k i t = some l) (hl' : leaf? r' k i t = some l') :
    (∃ A, l.rate = A * l.efficiency ∧ l'.rate = A * l'.efficiency) ∧
    ∀ n p p', leaf? r k i (t ++ ' ' :: n) = some p → leaf? r' k i (t ++ ' ' :: n) = some p' →
      ∃ B, p.rate = B * l.efficiency ∧ p'.rate = B * l'.efficiency := by
  have hd' : o.secondary > 1 → 0 ≤ c'.detector.intensityThreshold := by
    intro hs
    have : c'.detector.intensityThreshold = c.detector.intensityThreshold := congrArg Detector.EscapeParams.intensityThreshold hc.escape
    rw [this]
    exact hd hs
  have hx := C162_excitation hc reqs r r' h h' k i t
  obtain ⟨comps, geoms, -, -, h3⟩ := fluorescence_ok h
  obtain ⟨comps', geoms', -, -, h3'⟩ := fluorescence_ok h'
  obtain ⟨esc, hf⟩ := (calculate_final _ (env_regular hL) o (fun hs => env_names hL (hd hs)) _ _ _ h3).line k i t l ht hl
  obtain ⟨esc', hf'⟩ := (calculate_final _ (env_regular hL) o (fun hs => env_names hL (hd' hs)) _ _ _ h3').line k i t l' ht hl'
  rcases hx with ⟨hx, -⟩ | ⟨m, m', hm, hm', he⟩
  · rw [hx] at hl; cases hl
  rw [hl] at hm
  rw [hl'] at hm'
  cases hm
  cases hm'
  have ee : l'.energy = l.energy := by rw [he]
  have e1 : l'.primary = l.primary := by rw [he]
  have e2 : l'.secondary = l.secondary := by rw [he]
  have e3 : l'.tertiary = l.tertiary := by rw [he]
  have hesc : esc' = esc := by
    have s1 := hf.escapes
    have s2 := hf'.escapes
    rw [ee] at s2
    have hs : still (envOf pf fuel L srt c' [] []) = still (envOf pf fuel L srt c [] []) := still_other hc [] rfl
    have hh : ∀ (comps : List (SMap String ℝ)) (geoms : List ℝ) (e : ℝ), escapesOf (envOf pf fuel L srt c comps geoms) e =
        escapesOf (still (envOf pf fuel L srt c [] [])) e := fun _ _ _ => rfl
    have hh' : ∀ (comps : List (SMap String ℝ)) (geoms : List ℝ) (e : ℝ), escapesOf (envOf pf fuel L srt c' comps geoms) e =
        escapesOf (still (envOf pf fuel L srt c' [] [])) e := fun _ _ _ => rfl
    rw [hh] at s1
    rw [hh', hs, s1] at s2
    exact (Outcome.ok.inj s2).symm
  subst hesc
  refine ⟨⟨(1 - escapeTotal esc') * (l.primary + l.secondary + l.tertiary), by rw [hf.rate]; ring, by rw [hf'.rate, e1, e2, e3]; ring⟩, ?_⟩
  intro n p p' hp hp'
  have q1 := hf.peaks n
  have q2 := hf'.peaks n
  unfold escName at q1 q2
  rw [hp] at q1
  rw [hp'] at q2
  cases hq : SMap.find? esc' (String.ofList n) with
  | none => rw [hq] at q1; cases q1
  | some e =>
    rw [hq] at q1 q2
    simp only [Option.map_some, Option.some.injEq] at q1 q2
    refine ⟨e.rate * (l.primary + l.secondary + l.tertiary), ?_, ?_⟩
    · rw [q1]
      unfold peakOf
      dsimp only
      ring
    · rw [q2]
      unfold peakOf
      dsimp only
      rw [e1, e2, e3]
      ring

/-- **C162** An attenuator more multiplies the efficiency and the rate of each line, and the rates of the escape peaks of the line, by
its transmission at the energy of the line. -/
theorem C162_attenuator (hL : SoundLibrary pf fuel L) (hd : o.secondary > 1 → 0 ≤ c.detector.intensityThreshold)
    (pre post : List (Layer ℝ)) (a : Layer ℝ) (hpre : c.attenuators = pre ++ post)
    (reqs : List Request) (hp : ∀ q ∈ reqs, ' ' ∉ q.element.toList) (r r' : Result ℝ)
    (h : fluorescence pf fuel L srt c o g b (reqs.map .ok) = .ok r)
    (h' : fluorescence pf fuel L srt { c with attenuators := pre ++ a :: post } o g b (reqs.map .ok) = .ok r')
    (k : String) (i : Nat) (t : Str) (ht : ' ' ∉ t) (l l' : Leaf ℝ) (hl : leaf? r k i t = some l) (hl' : leaf? r' k i t = some l') :
    ∃ v, layerTransmission pf fuel L c a l.energy 90 [] = .ok v ∧ l'.efficiency = v * l.efficiency ∧ l'.rate = v * l.rate ∧
      ∀ n p p', leaf? r k i (t ++ ' ' :: n) = some p → leaf? r' k i (t ++ ' ' :: n) = some p' → p'.rate = v * p.rate := by
  have hc : OtherDetection c { c with attenuators := pre ++ a :: post } := ⟨rfl, rfl⟩
  have hx := C162_excitation hc (reqs.map .ok) r r' h h' k i t
  have hrates := C162_rates hL hd hc (reqs.map .ok) r r' h h' k i t ht l l' hl hl'
  rcases hx with ⟨hx, -⟩ | ⟨m, m', hm, hm', he⟩
  · rw [hx] at hl; cases hl
  rw [hl] at hm
  rw [hl'] at hm'
  cases hm
  cases hm'
  have ee : l'.energy = l.energy := by rw [he]
  obtain ⟨T, A, q, d, h1, h2, h3, h4, h5⟩ := C73_efficiency pf fuel L srt c o g hL reqs hp b r h k i t ht l hl
  obtain ⟨T', A', q', d', h1', h2', h3', h4', h5'⟩ :=
    C73_efficiency pf fuel L srt { c with attenuators := pre ++ a :: post } o g hL reqs hp b r' h' k i t ht l' hl'
  rw [ee] at h1' h2' h4' h5'
  have hT : (List.range i).map T' = (List.range i).map T := by
    apply List.map_congr_left
    intro j hj
    obtain ⟨lj, s1, s2⟩ := h1 j (List.mem_range.1 hj)
    obtain ⟨lj', s1', s2'⟩ := h1' j (List.mem_range.1 hj)
    have hs1' : c.sample[j]? = some lj' := s1'
    rw [s1] at hs1'
    cases hs1'
    have hs2' : layerTransmission pf fuel L c lj l.energy c.alphaOut (sampleComposition pf fuel L c j) = .ok (T' j) := s2'
    rw [s2] at hs2'
    exact (Outcome.ok.inj hs2').symm
  have hq : q' = q := by
    have h3'' : (if g then Xrf.getGeometricEfficiency c (i : Int) else .ok 1) = .ok q' := h3'
    rw [h3] at h3''
    exact (Outcome.ok.inj h3'').symm
  have hdd : d' = d := by
    have h4'' : (if c.detector.layer.hasMaterial ∨ c.detector.layer.materialName.length > 0 then
        detectorIntrinsic pf fuel L c.detector.layer l.energy else .ok 1) = .ok d' := h4'
    rw [h4] at h4''
    exact (Outcome.ok.inj h4'').symm
  have h2'' : List.Forall₂ (fun x v => layerTransmission pf fuel L c x l.energy 90 [] = .ok v) (pre ++ a :: post) A' := h2'
  rw [hpre] at h2
  have hA : ∃ v, layerTransmission pf fuel L c a l.energy 90 [] = .ok v ∧ A'.prod = v * A.prod := by
    clear h2' h5 h5' hpre h' hc hl' he hrates h1' h3' h4'
    induction pre generalizing A A' with
    | nil =>
      rw [List.nil_append] at h2 h2''
      cases h2'' with
      | cons x1 x2 =>
        rename_i v rest
        refine ⟨v, x1, ?_⟩
        have : rest = A := by
          clear x1
          induction h2 generalizing rest with
          | nil => cases x2; rfl
          | cons y1 _ ih =>
            cases x2 with
            | cons z1 z2 =>
              rw [y1] at z1
              cases z1
              rw [ih z2]
        rw [this, List.prod_cons]
    | cons x pre ih =>
      rw [List.cons_append] at h2 h2''
      cases h2 with
      | cons y1 y2 =>
        cases h2'' with
        | cons z1 z2 =>
          rw [y1] at z1
          cases z1
          obtain ⟨v, v1, v2⟩ := ih _ y2 _ z2
          refine ⟨v, v1, ?_⟩
          rw [List.prod_cons, List.prod_cons, v2]
          ring
  obtain ⟨v, v1, v2⟩ := hA
  have heff : l'.efficiency = v * l.efficiency := by
    rw [h5, h5', hT, hq, hdd, v2]
    ring
  refine ⟨v, v1, heff, ?_, ?_⟩
  · obtain ⟨B, b1, b2⟩ := hrates.1
    rw [b1, b2, heff]
    ring
  · intro n p p' hpp hpp'
    obtain ⟨B, b1, b2⟩ := hrates.2 n p p' hpp hpp'
    rw [b1, b2, heff]
    ring

end Multilayer
end Fisx
