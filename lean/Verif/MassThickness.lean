import Verif.FiltersExample

/-!
# C171, C172: only the mass thickness and the composition of a layer count
-/

set_option linter.unusedSectionVars false

namespace Fisx
namespace Multilayer

open Xrf (Request)

/-! ## Specification -/

/-- The same layer with another density and another thickness, but the same product of both. -/
structure SameMass (l l' : Layer ℝ) : Prop where
  rest : l' = { l with density := l'.density, thickness := l'.thickness }
  mass : l'.density * l'.thickness = l.density * l.thickness

/-- Two configurations that differ only in the densities and the thicknesses of the layers of the sample, of the filters, of the attenuators and
of the detector, and not in the products; the density and the thickness of the detector are set (positive) in both or in none. -/
structure SameMasses {R : Type} (c c' : Config ℝ R) : Prop where
  sample : List.Forall₂ SameMass c.sample c'.sample
  beamFilters : List.Forall₂ SameMass c.beamFilters c'.beamFilters
  attenuators : List.Forall₂ SameMass c.attenuators c'.attenuators
  detector : SameMass c.detector.layer c'.detector.layer
  detectorSet : (0 < c'.detector.layer.density ∧ 0 < c'.detector.layer.thickness) ↔
    (0 < c.detector.layer.density ∧ 0 < c.detector.layer.thickness)
  rest : c' = { c with sample := c'.sample, beamFilters := c'.beamFilters, attenuators := c'.attenuators,
                       detector := { c.detector with layer := c'.detector.layer } }

/-- Two layers, each in its configuration, that are made of the same elements in the same amounts (or fail to be resolved in the same way), have
the same mass thickness and cover the same part of the surface. Names, materials and the way to give them may differ. -/
structure SameLayer {R : Type} (pf : String → Outcome (SMap String ℝ)) (fuel : Nat) (L : Library ℝ) (c c' : Config ℝ R) (l l' : Layer ℝ) :
    Prop where
  composition : layerComposition pf fuel L c' l' = layerComposition pf fuel L c l
  mass : l'.density * l'.thickness = l.density * l.thickness
  covered : l'.funnyFactor = l.funnyFactor

/-- Two configurations with the same beam, angles, user tables and escape parameters, and with such layers in the same order. -/
structure SameLayers {R : Type} (pf : String → Outcome (SMap String ℝ)) (fuel : Nat) (L : Library ℝ) (c c' : Config ℝ R) : Prop where
  beam : c'.beam = c.beam
  userBeamFilters : c'.userBeamFilters = c.userBeamFilters
  userAttenuators : c'.userAttenuators = c.userAttenuators
  alphaIn : c'.alphaIn = c.alphaIn
  alphaOut : c'.alphaOut = c.alphaOut
  sample : List.Forall₂ (SameLayer pf fuel L c c') c.sample c'.sample
  beamFilters : List.Forall₂ (SameLayer pf fuel L c c') c.beamFilters c'.beamFilters
  attenuators : List.Forall₂ (SameLayer pf fuel L c c') c.attenuators c'.attenuators
  detector : SameMass c.detector.layer c'.detector.layer
  detectorSet : (0 < c'.detector.layer.density ∧ 0 < c'.detector.layer.thickness) ↔
    (0 < c.detector.layer.density ∧ 0 < c.detector.layer.thickness)
  escape : c'.detector.params = c.detector.params

/-! ## The calculation -/

section loops

variable {K : Type} [Field K] [LinearOrder K] [IsStrictOrderedRing K]

/-- A layer with all of its mass thickness in the density. -/
def LayerData.lump (l : LayerData K) : LayerData K := { l with density := l.density * l.thickness, thickness := 1 }

/-- The calculation with such layers. -/
def lump (env : Env K) : Env K := { env with layers := env.layers.map LayerData.lump }

variable (env : Env K)

theorem LayerData.lump_mass (l : LayerData K) : l.lump.density * l.lump.thickness = l.density * l.thickness := by
  simp [LayerData.lump]

theorem LayerData.lump_mass' (a : K) (l : LayerData K) : a * l.lump.density * l.lump.thickness = a * l.density * l.thickness := by
  rw [mul_assoc, LayerData.lump_mass, mul_assoc]

theorem incident_lump (e : K) : ∀ (ls : List (LayerData K)) (i : Nat) (acc : K),
    incident (lump env) e i (ls.map LayerData.lump) acc = incident env e i ls acc
  | [], _, _ => rfl
  | l :: ls, i, acc => by
    rw [List.map_cons]
    unfold incident
    simp only [incident_lump e ls, LayerData.lump_mass]
    rfl

theorem familiesLoop_lump (o : Options K) (m e w lw : K) (comp : SMap String K) : ∀ fs : List (String × K),
    familiesLoop (lump env) o m e w lw comp fs = familiesLoop env o m e w lw comp fs
  | [] => rfl
  | x :: fs => by
    unfold familiesLoop
    simp only [familiesLoop_lump o m e w lw comp fs]
    rfl

theorem emissionsLoop_lump (o : Options K) (m e w : K) : ∀ (ls : List (LayerData K)) (i : Nat) (inc : List (K × K)),
    emissionsLoop (lump env) o m e w i (ls.map LayerData.lump) inc = emissionsLoop env o m e w i ls inc
  | [], _, _ => by unfold emissionsLoop; rfl
  | l :: ls, i, [] => by rw [List.map_cons]; unfold emissionsLoop; rfl
  | l :: ls, i, p :: inc => by
    rw [List.map_cons]
    unfold emissionsLoop layerEmissions
    simp only [emissionsLoop_lump o m e w ls, familiesLoop_lump]
    rfl

theorem cacheLoop_lump (es : List K) : ∀ (n i : Nat), cacheLoop (lump env) es i n = cacheLoop env es i n
  | 0, _ => rfl
  | n + 1, i => by
    unfold cacheLoop
    simp only [cacheLoop_lump es n]
    rfl

theorem rayData_lump (o : Options K) (m e w : K) : rayData (lump env) o m e w = rayData env o m e w := by
  unfold rayData
  have h1 : (lump env).layers = env.layers.map LayerData.lump := rfl
  simp only [h1, incident_lump, emissionsLoop_lump, cacheLoop_lump, List.length_map]

theorem vget_lump (ls : List (LayerData K)) (j : Nat) :
    vget (ls.map LayerData.lump) j = (do let l ← vget ls j; return l.lump) := by
  unfold vget
  rw [List.getElem?_map]
  cases ls[j]? <;> rfl

theorem cachedMu_lump (rd : RayData K) (i : Nat) (e : K) : cachedMu (lump env) rd i e = cachedMu env rd i e := rfl

theorem betweenLoop_lump (rd : RayData K) (e : K) : ∀ (n b : Nat) (acc : K),
    betweenLoop (lump env) rd e b n acc = betweenLoop env rd e b n acc
  | 0, _, _ => rfl
  | n + 1, b, acc => by
    unfold betweenLoop
    have h1 : (lump env).layers = env.layers.map LayerData.lump := rfl
    rw [h1, vget_lump]
    simp only [cachedMu_lump, betweenLoop_lump rd e n]
    cases vget env.layers b with
    | ok l => simp only [Outcome.ok_bind, Outcome.pure_eq, LayerData.lump_mass]
    | _ => rfl

theorem primaryOf_lump (l : LayerData K) (muIn lw frac : K) (p : Tmp K) :
    primaryOf (lump env) l.lump muIn lw frac p = primaryOf env l muIn lw frac p := by
  unfold primaryOf
  simp only [LayerData.lump_mass']
  rfl

theorem inter_lump (rd : RayData K) (i j : Nat) (l1 l2 : LayerData K) (mu2 frac : K) (em : Emission K)
    (fs : SMap Str (Factor K)) (t : Str) (p : Tmp K) :
    inter (lump env) rd i j l1.lump l2.lump mu2 frac em fs t p = inter env rd i j l1 l2 mu2 frac em fs t p := by
  unfold inter
  simp only [betweenLoop_lump, LayerData.lump_mass, LayerData.lump_mass']
  rfl

/-- `deBoerL0` takes the density and the thickness; it uses their product. -/
def ProductOnly (env : Env K) : Prop := ∀ a b m d t, env.l0 a b m (d * t) 1 = env.l0 a b m d t

variable {env} (hp : ProductOnly env)
include hp

theorem intra_lump (l : LayerData K) (muIn frac : K) (em : Emission K) (fs : SMap Str (Factor K)) (t : Str) (p : Tmp K) :
    intra (lump env) l.lump muIn frac em fs t p = intra env l muIn frac em fs t p := by
  unfold intra
  have h : ∀ a b m, (lump env).l0 a b m l.lump.density l.lump.thickness = env.l0 a b m l.density l.thickness :=
    fun a b m => hp a b m l.density l.thickness
  simp only [h]
  rfl

theorem secondaryLoop_lump (rd : RayData K) (element : String) (thr : K) (i : Nat) (l : LayerData K) (muIn lw frac : K)
    (lines : List (Str × Tmp K)) : ∀ (n j : Nat), secondaryLoop (lump env) rd element thr i l.lump muIn lw frac lines j n =
      secondaryLoop env rd element thr i l muIn lw frac lines j n
  | 0, _ => rfl
  | n + 1, j => by
    have hem : ∀ (f g : Emission K → SMap Str (Factor K) → Str → Tmp K → Outcome (Option K)), (∀ em fs t p, f em fs t p = g em fs t p) →
        ∀ ems, emissionLoop (lump env) element thr j lines f ems = emissionLoop env element thr j lines g ems := by
      intro f g hfg
      have : f = g := by funext em fs t p; exact hfg em fs t p
      subst this
      intro ems
      induction ems with
      | nil => rfl
      | cons em ems ih =>
        unfold emissionLoop
        rw [ih]
        rfl
    unfold secondaryLoop
    have h1 : (lump env).layers = env.layers.map LayerData.lump := rfl
    rw [h1, vget_lump]
    simp only [secondaryLoop_lump rd element thr i l muIn lw frac lines n,
      hem _ _ (fun em fs t p => intra_lump hp l muIn frac em fs t p)]
    cases vget rd.emissions j with
    | ok ems =>
      cases vget rd.incident j with
      | ok p =>
        cases vget env.layers j with
        | ok l2 =>
          simp only [Outcome.ok_bind, Outcome.pure_eq]
          rw [hem _ _ (fun em fs t q => inter_lump env rd i j l l2 p.2 frac em fs t q)]
        | _ => rfl
      | _ => rfl
    | _ => rfl

omit hp in
theorem efficiency_lump (i : Nat) (q e : K) : efficiency (lump env) i q e = efficiency env i q e := by
  have hup : ∀ (n : Nat) (a : K), upperLoop (lump env) e n a = upperLoop env e n a := by
    intro n
    induction n with
    | zero => intro a; rfl
    | succ n ih => intro a; unfold upperLoop; simp only [ih]; rfl
  unfold efficiency
  rw [hup]
  rfl

omit hp in
theorem openLines_lump (key family : String) (i : Nat) (q thr : K) : ∀ (fs : List (Str × Factor K)) (res : Result K),
    openLines (lump env) key family i q thr fs res = openLines env key family i q thr fs res
  | [], _ => rfl
  | (t, f) :: fs, res => by
    unfold openLines
    simp only [openLines_lump key family i q thr fs, efficiency_lump]
    rfl

omit hp in
theorem deposit_lump (key : String) (i : Nat) (m : K) : ∀ (ls : List (Str × Tmp K)) (res : Result K),
    deposit (lump env) key i m ls res = deposit env key i m ls res
  | [], _ => rfl
  | (t, p) :: ls, res => by
    unfold deposit
    simp only [deposit_lump key i m ls]
    rfl

theorem cell_lump (o : Options K) (rd : RayData K) (req : Request) (thr : K) (factors : SMap Str (Factor K)) (i : Nat) (l : LayerData K)
    (res : Result K) : cell (lump env) o rd req thr factors i l.lump res = cell env o rd req thr factors i l res := by
  unfold cell
  have h1 : (lump env).layers.length = env.layers.length := by simp [lump]
  have h2 : l.lump.composition = l.composition := rfl
  have h3 : l.lump.geometric = l.geometric := rfl
  simp only [h1, h2, h3, openLines_lump, primaryOf_lump, secondaryLoop_lump hp, deposit_lump]
  rfl

theorem cellLoop_lump (o : Options K) (rd : RayData K) (req : Request) (thr : K) (factors : SMap Str (Factor K)) :
    ∀ (ls : List (LayerData K)) (i : Nat) (res : Result K),
    cellLoop (lump env) o rd req thr factors i (ls.map LayerData.lump) res = cellLoop env o rd req thr factors i ls res
  | [], _, _ => rfl
  | l :: ls, i, res => by
    rw [List.map_cons]
    unfold cellLoop
    simp only [cell_lump hp, cellLoop_lump o rd req thr factors ls]

theorem requestLoop_lump (o : Options K) (rd : RayData K) : ∀ (reqs : List (Outcome Request)) (n : Nat) (thrs : List K) (res : Result K),
    requestLoop (lump env) o rd n reqs thrs res = requestLoop env o rd n reqs thrs res
  | [], _, _, _ => rfl
  | q :: reqs, n, thrs, res => by
    unfold requestLoop
    have h1 : (lump env).layers = env.layers.map LayerData.lump := rfl
    simp only [requestLoop_lump o rd reqs, h1, cellLoop_lump hp]
    rfl

theorem calculate_lump (o : Options K) (reqs : List (Outcome Request)) (rays : List (K × K)) :
    calculate (lump env) o reqs rays = calculate env o reqs rays := by
  have h : ∀ (rays : List (K × K)) (thrs : List K) (m : K) (res : Result K),
      rayLoop (lump env) o reqs rays thrs m res = rayLoop env o reqs rays thrs m res := by
    intro rays
    induction rays with
    | nil => intros; rfl
    | cons x rays ih =>
      obtain ⟨e, w⟩ := x
      intro thrs m res
      unfold rayLoop
      simp only [ih, rayData_lump, requestLoop_lump hp]
  unfold calculate
  rw [h]

end loops

/-! ## The configuration -/

section config

variable {R : Type} {pf : String → Outcome (SMap String ℝ)} {fuel : Nat} {L : Library ℝ}

theorem SameMass.fields {l l' : Layer ℝ} (h : SameMass l l') : l'.hasMaterial = l.hasMaterial ∧ l'.material = l.material ∧
    l'.materialName = l.materialName ∧ l'.funnyFactor = l.funnyFactor := by
  rw [h.rest]
  exact ⟨rfl, rfl, rfl, rfl⟩

theorem massThickness_same {l l' : Layer ℝ} (h : l'.density * l'.thickness = l.density * l.thickness) (a : ℝ) :
    l'.massThickness a = l.massThickness a := by
  unfold Layer.massThickness
  rw [h]

theorem SameMass.getTransmission {l l' : Layer ℝ} (h : SameMass l l') (mu : Outcome ℝ) (a : ℝ) :
    l'.getTransmission mu a = l.getTransmission mu a := by
  unfold Layer.getTransmission
  rw [massThickness_same h.mass, h.fields.2.2.2]

variable {c c' : Config ℝ R}

theorem SameLayer.getTransmissions {l l' : Layer ℝ} (h : SameLayer pf fuel L c c' l l') (mus : Outcome (List ℝ)) (a : ℝ) :
    l'.getTransmissions mus a = l.getTransmissions mus a := by
  unfold Layer.getTransmissions
  rw [massThickness_same h.mass, h.covered]

theorem layerMu_same {l l' : Layer ℝ} (h : SameLayer pf fuel L c c' l l') (e : ℝ) (m : SMap String ℝ) :
    layerMu pf fuel L c' l' e m = layerMu pf fuel L c l e m := by
  unfold layerMu
  rw [h.composition]

theorem layerMus_same {l l' : Layer ℝ} (h : SameLayer pf fuel L c c' l l') (es : List ℝ)
    (m : SMap String ℝ) : layerMus pf fuel L c' l' es m = layerMus pf fuel L c l es m := by
  unfold layerMus
  rw [h.composition]

theorem layerFamilies_same {l l' : Layer ℝ} (h : SameLayer pf fuel L c c' l l')
    (srt : List (String × ℝ) → List (String × ℝ)) (e : ℝ) (m : SMap String ℝ) :
    layerFamilies pf fuel L srt c' l' e m = layerFamilies pf fuel L srt c l e m := by
  unfold layerFamilies
  rw [h.composition]

theorem layerTransmissions_same {l l' : Layer ℝ} (h : SameLayer pf fuel L c c' l l') (es : List ℝ)
    (a : ℝ) (m : SMap String ℝ) : layerTransmissions pf fuel L c' l' es a m = layerTransmissions pf fuel L c l es a m := by
  unfold layerTransmissions
  rw [h.getTransmissions, layerMus_same h]

theorem layerTransmission_same {l l' : Layer ℝ} (h : SameLayer pf fuel L c c' l l') (e : ℝ)
    (a : ℝ) (m : SMap String ℝ) : layerTransmission pf fuel L c' l' e a m = layerTransmission pf fuel L c l e a m := by
  unfold layerTransmission
  rw [layerTransmissions_same h]

theorem compositions_same {ls ls' : List (Layer ℝ)} (h : List.Forall₂ (SameLayer pf fuel L c c') ls ls') :
    compositions pf fuel L c' ls' = compositions pf fuel L c ls := by
  induction h with
  | nil => rfl
  | cons h1 _ ih =>
    unfold compositions
    rw [h1.composition, ih]

theorem filterLoop_same {ls ls' : List (Layer ℝ)} (h : List.Forall₂ (SameLayer pf fuel L c c') ls ls') :
    ∀ rays, filterLoop pf fuel L c' ls' rays = filterLoop pf fuel L c ls rays := by
  induction h with
  | nil => intro; rfl
  | cons h1 _ ih =>
    intro rays
    unfold filterLoop
    simp only [layerTransmissions_same h1, ih]

theorem layerData_same {ls ls' : List (Layer ℝ)} (h : List.Forall₂ (SameLayer pf fuel L c c') ls ls') (comps : List (SMap String ℝ))
    (geoms : List ℝ) : (layerData ls' comps geoms).map LayerData.lump = (layerData ls comps geoms).map LayerData.lump := by
  unfold layerData
  generalize comps.zip geoms = z
  induction h generalizing z with
  | nil => rfl
  | cons h1 _ ih =>
    cases z with
    | nil => rfl
    | cons p z =>
      rw [List.zipWith_cons_cons, List.zipWith_cons_cons, List.map_cons, List.map_cons, ih]
      congr 1
      unfold LayerData.lump
      rw [h1.mass]

/-- A question about layer `i` of the sample. -/
theorem vget_same {α : Type} {ls ls' : List (Layer ℝ)} (h : List.Forall₂ (SameLayer pf fuel L c c') ls ls') (i : Nat)
    (f f' : Layer ℝ → Outcome α) (hf : ∀ l l', SameLayer pf fuel L c c' l l' → f' l' = f l) : (vget ls' i).bind f' = (vget ls i).bind f := by
  induction h generalizing i with
  | nil => rfl
  | cons h1 _ ih =>
    cases i with
    | zero => exact hf _ _ h1
    | succ i => exact ih i

theorem envOf_same (h : SameLayers pf fuel L c c') (srt : List (String × ℝ) → List (String × ℝ)) (comps : List (SMap String ℝ))
    (geoms : List ℝ) : lump (envOf pf fuel L srt c' comps geoms) = lump (envOf pf fuel L srt c comps geoms) := by
  have h1 : (lump (envOf pf fuel L srt c' comps geoms)).layers = (lump (envOf pf fuel L srt c comps geoms)).layers :=
    layerData_same h.sample comps geoms
  have h2 : (envOf pf fuel L srt c' comps geoms).mu = (envOf pf fuel L srt c comps geoms).mu := by
    funext i e
    exact vget_same h.sample i _ _ (fun l l' hl => by simp only [layerMu_same hl])
  have h3 : (envOf pf fuel L srt c' comps geoms).mus = (envOf pf fuel L srt c comps geoms).mus := by
    funext i e
    exact vget_same h.sample i _ _ (fun l l' hl => by simp only [layerMus_same hl])
  have h4 : (envOf pf fuel L srt c' comps geoms).families = (envOf pf fuel L srt c comps geoms).families := by
    funext i e
    exact vget_same h.sample i _ _ (fun l l' hl => by simp only [layerFamilies_same hl])
  have h5 : (envOf pf fuel L srt c' comps geoms).transmission = (envOf pf fuel L srt c comps geoms).transmission := by
    funext i e
    refine vget_same h.sample i _ _ (fun l l' hl => ?_)
    simp only [layerTransmission_same hl, h.alphaOut]
  have h6 : (envOf pf fuel L srt c' comps geoms).attenuators = (envOf pf fuel L srt c comps geoms).attenuators := by
    show c'.attenuators.map (fun l e => layerTransmission pf fuel L c' l e 90 []) = c.attenuators.map (fun l e => layerTransmission pf fuel L c l e 90 [])
    have hat := h.attenuators
    generalize c'.attenuators = as' at hat
    generalize c.attenuators = as at hat
    induction hat with
    | nil => rfl
    | cons h1 _ ih =>
      rw [List.map_cons, List.map_cons, ih]
      congr 1
      funext e
      exact layerTransmission_same h1 e 90 []
  have h7 : (envOf pf fuel L srt c' comps geoms).intrinsic = (envOf pf fuel L srt c comps geoms).intrinsic := by
    funext e
    show detectorIntrinsic pf fuel L c'.detector.layer e = detectorIntrinsic pf fuel L c.detector.layer e
    unfold detectorIntrinsic
    rw [h.detector.getTransmission]
    have : detectorMu pf fuel L c'.detector.layer e = detectorMu pf fuel L c.detector.layer e := by
      unfold detectorMu
      rw [h.detector.fields.1, h.detector.fields.2.1, h.detector.fields.2.2.1]
    rw [this]
    by_cases hd : c.detector.layer.density > 0 ∧ c.detector.layer.thickness > 0
    · rw [if_pos hd, if_pos (h.detectorSet.mpr hd)]
    · rw [if_neg hd, if_neg (fun q => hd (h.detectorSet.mp q))]
  have h8 : (envOf pf fuel L srt c' comps geoms).hasDetector = (envOf pf fuel L srt c comps geoms).hasDetector := by
    show (c'.detector.layer.hasMaterial || decide (c'.detector.layer.materialName.length > 0)) =
      (c.detector.layer.hasMaterial || decide (c.detector.layer.materialName.length > 0))
    rw [h.detector.fields.1, h.detector.fields.2.2.1]
  have h9 : (envOf pf fuel L srt c' comps geoms).escape = (envOf pf fuel L srt c comps geoms).escape := by
    funext e
    show detectorEscape pf fuel L c'.detector.params e = detectorEscape pf fuel L c.detector.params e
    rw [h.escape]
  have h10 : (envOf pf fuel L srt c' comps geoms).sinIn = (envOf pf fuel L srt c comps geoms).sinIn := by
    show Real.sin (c'.alphaIn * _) = Real.sin (c.alphaIn * _)
    rw [h.alphaIn]
  have h11 : (envOf pf fuel L srt c' comps geoms).sinOut = (envOf pf fuel L srt c comps geoms).sinOut := by
    show Real.sin (c'.alphaOut * _) = Real.sin (c.alphaOut * _)
    rw [h.alphaOut]
  have h12 : (envOf pf fuel L srt c' comps geoms).tables = (envOf pf fuel L srt c comps geoms).tables := by
    show c'.userAttenuators.map _ = c.userAttenuators.map _
    rw [h.userAttenuators]
  unfold lump at h1 ⊢
  simp only [Env.mk.injEq] at h1 ⊢
  exact ⟨h1, h10, h11, rfl, h2, h3, h4, rfl, rfl, h5, h6, h12, h8, h7, h9, rfl, rfl⟩

theorem geometricLoop_same (g : Bool) {ls ls' : List (Layer ℝ)} (h : ls'.length = ls.length) (k : Nat)
    (hg : g = true → ∀ i < ls.length, Xrf.getGeometricEfficiency c' ((k + i : Nat) : Int) = Xrf.getGeometricEfficiency c ((k + i : Nat) : Int)) :
    geometricLoop c' g k ls' = geometricLoop c g k ls := by
  induction ls generalizing k ls' with
  | nil =>
    cases ls' with
    | nil => rfl
    | cons _ _ => simp at h
  | cons l ls ih =>
    cases ls' with
    | nil => simp at h
    | cons l' ls' =>
      unfold geometricLoop
      rw [ih (by simpa using h) (k + 1) (fun q i hi => by
        have := hg q (i + 1) (by simpa using hi)
        rw [show k + 1 + i = k + (i + 1) by omega]
        exact this)]
      cases g with
      | false => rfl
      | true =>
        have := hg rfl 0 (by simp)
        rw [Nat.add_zero] at this
        rw [if_pos rfl, if_pos rfl, this]

theorem deBoerL0_product (a b m d t : ℝ) : MathFn.deBoerL0 a b m (d * t) 1 = MathFn.deBoerL0 a b m d t := by
  unfold MathFn.deBoerL0
  have : (1 : ℝ) * (d * t) = t * d := by ring
  rw [this]

/-- **C172** The result of getMultilayerFluorescence, whatever it is (a result, an exception or undefined behaviour), depends on the layers of the
sample, of the filters and of the attenuators only through the amounts of the elements they are made of, their mass thicknesses and the part of
the surface they cover: not on their names, nor on the way their materials are given (by a name, a formula or a material object; in the
configuration or in the library), nor on materials of the configuration that no layer uses. The geometric efficiencies must be the same; they are
all one when they are not asked for. -/
theorem C172_composition (h : SameLayers pf fuel L c c') (srt : List (String × ℝ) → List (String × ℝ)) (o : Options ℝ) (g : Bool)
    (b : Beam ℝ) (reqs : List (Outcome Request))
    (hg : g = true → ∀ i < c.sample.length, Xrf.getGeometricEfficiency c' (i : Int) = Xrf.getGeometricEfficiency c (i : Int)) :
    fluorescence pf fuel L srt c' o g b reqs = fluorescence pf fuel L srt c o g b reqs := by
  have hb : usedBeam c' b = usedBeam c b := by unfold usedBeam; rw [h.beam]
  have key : ∀ comps geoms rays, calculate (envOf pf fuel L srt c' comps geoms) o reqs rays =
      calculate (envOf pf fuel L srt c comps geoms) o reqs rays := by
    intro comps geoms rays
    rw [← calculate_lump (env := envOf pf fuel L srt c' comps geoms) deBoerL0_product, envOf_same h srt comps geoms,
      calculate_lump (env := envOf pf fuel L srt c comps geoms) deBoerL0_product]
  unfold fluorescence
  rw [compositions_same h.sample, hb, h.userBeamFilters]
  simp only [filterLoop_same h.beamFilters, key]
  rw [geometricLoop_same (c := c) (c' := c') g (ls := c.sample) (ls' := c'.sample) h.sample.length_eq.symm 0 (fun q i hi => by
    rw [Nat.zero_add]; exact hg q i hi)]

/-- Layers with the same mass thickness are the same for the calculation. -/
theorem SameMass.layer (hm : c'.materials = c.materials) {l l' : Layer ℝ} (h : SameMass l l') : SameLayer pf fuel L c c' l l' where
  composition := by
    unfold layerComposition
    rw [hm, h.fields.1, h.fields.2.1, h.fields.2.2.1]
  mass := h.mass
  covered := h.fields.2.2.2

theorem SameMasses.layers (h : SameMasses c c') : SameLayers pf fuel L c c' := by
  have hm : c'.materials = c.materials := by rw [h.rest]
  exact
  { beam := by rw [h.rest]
    userBeamFilters := by rw [h.rest]
    userAttenuators := by rw [h.rest]
    alphaIn := by rw [h.rest]
    alphaOut := by rw [h.rest]
    sample := h.sample.imp (fun _ _ => SameMass.layer hm)
    beamFilters := h.beamFilters.imp (fun _ _ => SameMass.layer hm)
    attenuators := h.attenuators.imp (fun _ _ => SameMass.layer hm)
    detector := h.detector
    detectorSet := h.detectorSet
    escape := by
      have h1 : c'.detector = { c.detector with layer := c'.detector.layer } := congrArg Config.detector h.rest
      rw [h1]
      unfold Detector.params
      dsimp only
      rw [h.detector.fields.1, h.detector.fields.2.1, h.detector.fields.2.2.1] }

/-- **C171** The result of getMultilayerFluorescence, whatever it is, does not depend on the densities and the thicknesses of the layers of the
sample, of the filters, of the attenuators and of the detector, but only on their products, as long as the geometric efficiencies are the same. -/
theorem C171_mass_thickness (h : SameMasses c c') (srt : List (String × ℝ) → List (String × ℝ)) (o : Options ℝ) (g : Bool)
    (b : Beam ℝ) (reqs : List (Outcome Request))
    (hg : g = true → ∀ i < c.sample.length, Xrf.getGeometricEfficiency c' (i : Int) = Xrf.getGeometricEfficiency c (i : Int)) :
    fluorescence pf fuel L srt c' o g b reqs = fluorescence pf fuel L srt c o g b reqs :=
  C172_composition h.layers srt o g b reqs hg

/-- **C171** (without the geometric efficiencies) -/
theorem C171_plain (h : SameMasses c c') (srt : List (String × ℝ) → List (String × ℝ)) (o : Options ℝ)
    (b : Beam ℝ) (reqs : List (Outcome Request)) :
    fluorescence pf fuel L srt c' o false b reqs = fluorescence pf fuel L srt c o false b reqs :=
  C171_mass_thickness h srt o false b reqs (fun h => by cases h)

/-- **C171** (a detector without a size) The geometric efficiencies are all one when the diameter of the detector is 0. -/
theorem C171_point (h : SameMasses c c') (hd : c.detector.diameter = 0) (srt : List (String × ℝ) → List (String × ℝ)) (o : Options ℝ) (g : Bool)
    (b : Beam ℝ) (reqs : List (Outcome Request)) :
    fluorescence pf fuel L srt c' o g b reqs = fluorescence pf fuel L srt c o g b reqs :=
  C171_mass_thickness h srt o g b reqs (fun _ i _ => by
    have hd' : c'.detector.diameter = 0 := by rw [h.rest]; exact hd
    unfold Xrf.getGeometricEfficiency
    simp only [hd, hd', if_true])

end config

/-! ## Cases -/

/-- `C171_plain`: a layer of iron with an attenuator of iron; the calculation returns and has the line. -/
theorem fe_mass (fuel : Nat) (srt : List (String × ℝ) → List (String × ℝ)) (hs : Library.SortsByEnergy srt) (limit : ℝ) :
    ∃ r l, fluorescence feParser (fuel + 1) feLibrary srt (feStack [] [Layer.new "Fe" 8 1 1] [Layer.new "Fe" 8 2 1]) ⟨0, true, limit⟩ false Beam.new
        [.ok ⟨"Fe", "K", -1⟩] = .ok r ∧
      fluorescence feParser (fuel + 1) feLibrary srt (feStack [] [Layer.new "Fe" 4 2 1] [Layer.new "Fe" 2 8 1]) ⟨0, true, limit⟩ false Beam.new
        [.ok ⟨"Fe", "K", -1⟩] = .ok r ∧ leaf? r "Fe K" 0 "KL3".toList = some l := by
  obtain ⟨r, hr⟩ := feStack_returns fuel hs limit Beam.new [] [Layer.new "Fe" 8 1 1] [Layer.new "Fe" 8 2 1] (by simp [Layer.new])
  obtain ⟨l, hl⟩ := feStack_line fuel hr
  refine ⟨r, l, hr, ?_, hl⟩
  rw [← hr]
  exact C171_plain (c := feStack [] [Layer.new "Fe" 8 1 1] [Layer.new "Fe" 8 2 1]) (c' := feStack [] [Layer.new "Fe" 4 2 1] [Layer.new "Fe" 2 8 1])
    { sample := .cons ⟨rfl, by norm_num [Layer.new]⟩ .nil
      beamFilters := .nil
      attenuators := .cons ⟨rfl, by norm_num [Layer.new]⟩ .nil
      detector := ⟨rfl, rfl⟩
      detectorSet := Iff.rfl
      rest := rfl } srt _ _ _

/-- The iron as a material of the configuration. -/
noncomputable def plate : Material ℝ := { (Material.new : Material ℝ) with name := "plate", composition := [("Fe", 1)] }

/-- A layer that names it. -/
noncomputable def feNamed : Config ℝ Unit := { feStack [] [Layer.new "plate" 4 2 1] [] with materials := [plate] }

theorem feNamed_composition (fuel : Nat) :
    layerComposition feParser (fuel + 2) feLibrary feNamed (Layer.new "plate" 4 2 1) = .ok [("Fe", 1)] := by
  have hf : feLibrary.formula feParser "plate" = .ok [] := by
    unfold Library.formula feParser
    rw [if_neg (by decide), Outcome.ok_bind]
    simp [Library.masses, SMap.total]
  have hfe : feLibrary.formula feParser "Fe" = .ok [("Fe", 1)] := by
    unfold Library.formula feParser
    rw [if_pos rfl, Outcome.ok_bind]
    have hm : Library.masses feLibrary [("Fe", 1)] = some [("Fe", 1 * 56)] := by
      have h1 : feLibrary.dict.find? "Fe" = some 0 := rfl
      have h2 : feLibrary.elements[0]? = some ⟨"Fe", 56, feElement⟩ := rfl
      simp [Library.masses, h1, h2]
    rw [hm]
    simp [SMap.total]
  have hin : Library.compWith feParser feLibrary [plate] (fuel + 1) "Fe" = .ok [("Fe", 1)] := by
    unfold Library.compWith
    rw [hfe, Outcome.ok_bind, if_pos (by simp)]
    rfl
  unfold layerComposition
  rw [if_neg (by simp [Layer.new])]
  show Library.compWith feParser feLibrary [plate] (fuel + 2) "plate" = _
  unfold Library.compWith
  rw [hf, Outcome.ok_bind, if_neg (by simp), if_neg (by simp)]
  have ho : Library.ownComposition feParser feLibrary [plate] (fuel + 1) "plate" = .ok [("Fe", 1)] := by
    unfold Library.ownComposition
    simp [plate]
  rw [ho, Outcome.ok_bind, if_neg (by simp)]
  unfold Library.mixLoop
  rw [hin, Outcome.ok_bind, if_neg (by simp)]
  unfold Library.mixLoop
  rw [Outcome.ok_bind]
  simp [Library.addScaled, Library.addTo, Library.normalise, SMap.total, SMap.insert, SMap.find?]

/-- `C172_composition`: the iron given by the name of a material of the configuration, with another density and thickness. -/
theorem fe_named (fuel : Nat) (srt : List (String × ℝ) → List (String × ℝ)) (hs : Library.SortsByEnergy srt) (limit : ℝ) :
    ∃ r l, fluorescence feParser (fuel + 2) feLibrary srt feNamed ⟨0, true, limit⟩ false Beam.new [.ok ⟨"Fe", "K", -1⟩] = .ok r ∧
      fluorescence feParser (fuel + 2) feLibrary srt (feStack [] [Layer.new "Fe" 8 1 1] []) ⟨0, true, limit⟩ false Beam.new
        [.ok ⟨"Fe", "K", -1⟩] = .ok r ∧ leaf? r "Fe K" 0 "KL3".toList = some l := by
  obtain ⟨r, hr⟩ := feStack_returns (fuel + 1) hs limit Beam.new [] [Layer.new "Fe" 8 1 1] [] (by simp [Layer.new])
  obtain ⟨l, hl⟩ := feStack_line (fuel + 1) hr
  refine ⟨r, l, ?_, hr, hl⟩
  rw [← hr]
  have hlay : SameLayer feParser (fuel + 2) feLibrary (feStack [] [Layer.new "Fe" 8 1 1] []) feNamed (Layer.new "Fe" 8 1 1)
      (Layer.new "plate" 4 2 1) :=
    ⟨by rw [feNamed_composition, feComposition' (fuel + 1) (feStack [] [Layer.new "Fe" 8 1 1] []) rfl _ rfl rfl], by norm_num [Layer.new], rfl⟩
  exact C172_composition (c := feStack [] [Layer.new "Fe" 8 1 1] []) (c' := feNamed)
    { beam := rfl
      userBeamFilters := rfl
      userAttenuators := rfl
      alphaIn := rfl
      alphaOut := rfl
      sample := .cons hlay .nil
      beamFilters := .nil
      attenuators := .nil
      detector := ⟨rfl, rfl⟩
      detectorSet := Iff.rfl
      escape := rfl } srt _ _ _ _ (fun h => by cases h)

end Multilayer
end Fisx
