import Verif.MultilayerMono

/-!
# C160: the order of the filters and of the attenuators does not matter
-/

set_option linter.unusedSectionVars false

namespace Fisx
namespace Multilayer

open Outcome (Le)
open Xrf (Request)

/-- Two configurations that differ only in the order of their beam filters, user beam filters, attenuators and user attenuators. -/
structure Reordered {R : Type} (c c' : Config ℝ R) : Prop where
  beamFilters : c.beamFilters.Perm c'.beamFilters
  userBeamFilters : c.userBeamFilters.Perm c'.userBeamFilters
  attenuators : c.attenuators.Perm c'.attenuators
  userAttenuators : c.userAttenuators.Perm c'.userAttenuators
  rest : c' = { c with beamFilters := c'.beamFilters, userBeamFilters := c'.userBeamFilters, attenuators := c'.attenuators,
                       userAttenuators := c'.userAttenuators }

/-- A configuration with other filters and attenuators. -/
abbrev refilter {R : Type} (c : Config ℝ R) (f1 : List (Layer ℝ)) (f2 : List (TransmissionTable ℝ)) (f3 : List (Layer ℝ))
    (f4 : List (TransmissionTable ℝ)) : Config ℝ R :=
  { c with beamFilters := f1, userBeamFilters := f2, attenuators := f3, userAttenuators := f4 }

theorem Reordered.symm {R : Type} {c c' : Config ℝ R} (h : Reordered c c') : Reordered c' c where
  beamFilters := h.beamFilters.symm
  userBeamFilters := h.userBeamFilters.symm
  attenuators := h.attenuators.symm
  userAttenuators := h.userAttenuators.symm
  rest := by
    have := h.rest
    obtain ⟨a1, a2, a3, a4, a5, a6, a7, a8, a9, a10, a11, a12⟩ := c
    obtain ⟨b1, b2, b3, b4, b5, b6, b7, b8, b9, b10, b11, b12⟩ := c'
    simp only [Config.mk.injEq] at this ⊢
    tauto

section lemmas

variable {R : Type} {pf : String → Outcome (SMap String ℝ)} {fuel : Nat} {L : Library ℝ} {c : Config ℝ R}

theorem attenuate_fst {rays : List (ℝ × ℝ)} {ts : List ℝ} (h : ts.length = rays.length) :
    (attenuate rays ts).map Prod.fst = rays.map Prod.fst := by
  unfold attenuate
  induction rays generalizing ts with
  | nil => simp
  | cons r rays ih =>
    cases ts with
    | nil => simp at h
    | cons t ts => simp [ih (by simpa using h)]

theorem attenuate_comm (rays : List (ℝ × ℝ)) (ts us : List ℝ) :
    attenuate (attenuate rays ts) us = attenuate (attenuate rays us) ts := by
  unfold attenuate
  induction rays generalizing ts us with
  | nil => simp
  | cons r rays ih =>
    cases ts with
    | nil => cases us <;> simp
    | cons t ts =>
      cases us with
      | nil => simp
      | cons u us =>
        simp only [List.zipWith_cons_cons, ih]
        congr 2
        ring

theorem filterLoop_perm {ls ls' : List (Layer ℝ)} (hp : ls.Perm ls') : ∀ rays : List (ℝ × ℝ),
    Le (filterLoop pf fuel L c ls rays) (filterLoop pf fuel L c ls' rays) := by
  induction hp with
  | nil => exact fun _ => Le.refl _
  | cons a _ ih =>
    intro rays
    unfold filterLoop
    exact (Le.refl _).bind fun ts => ih _
  | swap a b l =>
    intro rays v hv
    unfold filterLoop at hv
    obtain ⟨ts, h1, hv⟩ := Outcome.bind_eq_ok.mp hv
    unfold filterLoop at hv
    obtain ⟨us, h2, hv⟩ := Outcome.bind_eq_ok.mp hv
    have l1 : ts.length = rays.length := by
      have := (layerTransmissions_each h1).length_eq
      simpa using this.symm
    have l2 : us.length = rays.length := by
      have := (layerTransmissions_each h2).length_eq
      rw [attenuate_fst l1] at this
      simpa using this.symm
    rw [attenuate_fst l1] at h2
    unfold filterLoop
    rw [h2, Outcome.ok_bind]
    unfold filterLoop
    rw [attenuate_fst l2, h1, Outcome.ok_bind, attenuate_comm]
    exact hv
  | trans _ _ ih1 ih2 => exact fun rays v hv => ih2 rays v (ih1 rays v hv)

theorem getTransmissions_length (t : TransmissionTable ℝ) (es : List ℝ) : (t.getTransmissions es).length = es.length := by
  unfold TransmissionTable.getTransmissions
  simp

theorem userFilterLoop_perm {ls ls' : List (TransmissionTable ℝ)} (hp : ls.Perm ls') : ∀ rays : List (ℝ × ℝ),
    userFilterLoop ls rays = userFilterLoop ls' rays := by
  induction hp with
  | nil => exact fun _ => rfl
  | cons a _ ih =>
    intro rays
    unfold userFilterLoop
    exact ih _
  | swap a b l =>
    intro rays
    simp only [userFilterLoop]
    rw [attenuate_fst (by rw [getTransmissions_length]; simp), attenuate_fst (by rw [getTransmissions_length]; simp), attenuate_comm]
  | trans _ _ ih1 ih2 => exact fun rays => (ih1 rays).trans (ih2 rays)

theorem attenuatorLoop_perm {K : Type} [Field K] (e : K) {ls ls' : List (K → Outcome K)} (hp : ls.Perm ls') : ∀ d : K,
    Le (attenuatorLoop e ls d) (attenuatorLoop e ls' d) := by
  induction hp with
  | nil => exact fun _ => Le.refl _
  | cons a _ ih =>
    intro d
    unfold attenuatorLoop
    exact (Le.refl _).bind fun t => ih _
  | swap a b l =>
    intro d v hv
    simp only [attenuatorLoop] at hv ⊢
    obtain ⟨t, h1, hv⟩ := Outcome.bind_eq_ok.mp hv
    obtain ⟨u, h2, hv⟩ := Outcome.bind_eq_ok.mp hv
    rw [h2, Outcome.ok_bind, h1, Outcome.ok_bind, mul_right_comm]
    exact hv
  | trans _ _ ih1 ih2 => exact fun d v hv => ih2 d v (ih1 d v hv)

theorem foldl_tables {K : Type} [Field K] (e : K) {ls ls' : List (K → K)} (hp : ls.Perm ls') (d : K) :
    ls.foldl (fun d t => d * t e) d = ls'.foldl (fun d t => d * t e) d := by
  have : ∀ (ls : List (K → K)) (d : K), ls.foldl (fun d t => d * t e) d = d * (ls.map (fun t => t e)).prod := by
    intro ls
    induction ls with
    | nil => simp
    | cons t ls ih => intro d; rw [List.foldl_cons, ih, List.map_cons, List.prod_cons, mul_assoc]
  rw [this, this, (hp.map _).prod_eq]

end lemmas

section theorems

variable {R : Type} {pf : String → Outcome (SMap String ℝ)} {fuel : Nat} {L : Library ℝ} {c c' : Config ℝ R}
  {srt : List (String × ℝ) → List (String × ℝ)} {o : Options ℝ} {g : Bool} {b : Beam ℝ} {reqs : List (Outcome Request)}

theorem compositions_congr (h : c'.materials = c.materials) : ∀ ls : List (Layer ℝ),
    compositions pf fuel L c' ls = compositions pf fuel L c ls
  | [] => rfl
  | l :: ls => by
    unfold compositions
    rw [compositions_congr h ls]
    unfold layerComposition
    rw [h]

theorem geometricLoop_congr (h : ∀ i, Xrf.getGeometricEfficiency c' i = Xrf.getGeometricEfficiency c i) : ∀ (ls : List (Layer ℝ)) (i : Nat),
    geometricLoop c' g i ls = geometricLoop c g i ls
  | [], _ => rfl
  | l :: ls, i => by
    unfold geometricLoop
    rw [geometricLoop_congr h ls, h]

theorem reordered_le (hr : Reordered c c') :
    Le (fluorescence pf fuel L srt c o g b reqs) (fluorescence pf fuel L srt c' o g b reqs) := by
  have hrest := hr.rest
  obtain ⟨p1, p2, p3, p4, -⟩ := hr
  generalize c'.beamFilters = f1 at *
  generalize c'.userBeamFilters = f2 at *
  generalize c'.attenuators = f3 at *
  generalize c'.userAttenuators = f4 at *
  subst hrest
  unfold fluorescence
  refine Outcome.Le.bind (Le.of_eq (compositions_congr (by rfl) _).symm) fun comps => ?_
  have hfl : ∀ ls rays, filterLoop pf fuel L (refilter c f1 f2 f3 f4)
      ls rays = filterLoop pf fuel L c ls rays := by
    intro ls
    induction ls with
    | nil => intro rays; rfl
    | cons l ls ih =>
      intro rays
      unfold filterLoop
      simp only [ih]
      rfl
  refine Outcome.Le.bind (y := filterLoop pf fuel L _ f1 (usedBeam c b)) ?_ fun rays => ?_
  · rw [hfl]
    exact filterLoop_perm p1 _
  dsimp only
  refine Outcome.Le.bind (Le.of_eq (geometricLoop_congr (fun i => by rfl) _ _).symm) fun geoms => ?_
  rw [userFilterLoop_perm p2]
  apply calculate_le
  exact {
    layers := rfl, sinIn := rfl, sinOut := rfl, exp := rfl
    mu := fun _ _ => Le.refl _
    mus := fun _ _ => Le.refl _
    families := fun _ _ => Le.refl _
    excite := fun _ _ _ => Le.refl _
    threshold := fun _ _ => Le.refl _
    hasDetector := rfl
    escape := fun _ => Le.refl _
    l0 := fun _ _ _ _ _ => Le.refl _
    x := fun _ _ _ _ _ _ _ => Le.refl _
    efficiency := by
      intro i q e
      unfold efficiency
      have hup : ∀ (n : Nat) (d : ℝ), upperLoop (envOf pf fuel L srt (refilter c f1 f2 f3 f4) comps geoms) e n d = upperLoop (envOf pf fuel L srt c comps geoms) e n d := by
        intro n
        induction n with
        | zero => intro d; rfl
        | succ n ih => intro d; unfold upperLoop; simp only [ih]; rfl
      refine Outcome.Le.bind (Le.of_eq (hup i 1).symm) fun d1 => ?_
      refine Outcome.Le.bind (attenuatorLoop_perm e (p3.map _) d1) fun d2 => ?_
      dsimp only
      have : (envOf pf fuel L srt c comps geoms).tables.foldl (fun d t => d * t e) d2 =
          (envOf pf fuel L srt (refilter c f1 f2 f3 f4)
            comps geoms).tables.foldl (fun d t => d * t e) d2 := foldl_tables e (p4.map _) d2
      rw [this]
      exact Le.refl _ }

/-- **C160** The order in which the beam filters, the user beam filters, the attenuators and the user attenuators are given does not
matter: the calculation gives the same result, for all lines, with primary, secondary and tertiary contributions, rates and
efficiencies, and if it gives none in one order it gives none in the other. -/
theorem C160_order (hr : Reordered c c') (r : Result ℝ) :
    fluorescence pf fuel L srt c o g b reqs = .ok r ↔ fluorescence pf fuel L srt c' o g b reqs = .ok r :=
  ⟨reordered_le hr r, reordered_le hr.symm r⟩

/-- Two different filters in both orders: not the same list. -/
example : ∃ c c' : Config ℝ Unit, Reordered c c' ∧ c.beamFilters ≠ c'.beamFilters ∧ c.sample = [Layer.new "Fe" 8 1 1] := by
  have hne : (Layer.new "Fe" 8 1 1 : Layer ℝ) ≠ Layer.new "Fe" 8 2 1 := by
    intro h
    have := congrArg Layer.thickness h
    norm_num [Layer.new] at this
  refine ⟨{ feConfig with beamFilters := [Layer.new "Fe" 8 1 1, Layer.new "Fe" 8 2 1] },
    { feConfig with beamFilters := [Layer.new "Fe" 8 2 1, Layer.new "Fe" 8 1 1] }, ?_, ?_, rfl⟩
  · exact ⟨List.Perm.swap _ _ _, List.Perm.refl _, List.Perm.refl _, List.Perm.refl _, rfl⟩
  · intro h
    have h : [Layer.new "Fe" 8 1 1, Layer.new "Fe" 8 2 1] = ([Layer.new "Fe" 8 2 1, Layer.new "Fe" 8 1 1] : List (Layer ℝ)) := h
    simp only [List.cons.injEq] at h
    exact hne h.1

end theorems

end Multilayer
end Fisx
