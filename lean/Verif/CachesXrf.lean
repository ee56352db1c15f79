import Verif.Caches
import Verif.MultilayerEnv
import Verif.Sound

/-!
# The caches of the library never change the fluorescence of a sample (property C128)
-/

set_option linter.unusedSectionVars false

namespace Fisx
namespace Multilayer

open Xrf (Request)

variable {R : Type} {pf : String → Outcome (SMap String ℝ)} {fuel : Nat} {L M : Library ℝ}

theorem alike_layerComposition (h : Library.Alike L M) (c : Config ℝ R) (l : Layer ℝ) :
    layerComposition pf fuel L c l = layerComposition pf fuel M c l := by
  unfold layerComposition
  rw [h.compMap, h.compWith]

theorem alike_compositions (h : Library.Alike L M) (c : Config ℝ R) (ls : List (Layer ℝ)) :
    compositions pf fuel L c ls = compositions pf fuel M c ls := by
  induction ls with
  | nil => rfl
  | cons l ls ih => unfold compositions; rw [alike_layerComposition h, ih]

theorem alike_layerMu (h : Library.Alike L M) (c : Config ℝ R) (l : Layer ℝ) (e : ℝ) (comp : SMap String ℝ) :
    layerMu pf fuel L c l e comp = layerMu pf fuel M c l e comp := by
  unfold layerMu
  simp only [h.mixMu, alike_layerComposition h]

theorem alike_layerMus (h : Library.Alike L M) (c : Config ℝ R) (l : Layer ℝ) (es : List ℝ) (comp : SMap String ℝ) :
    layerMus pf fuel L c l es comp = layerMus pf fuel M c l es comp := by
  unfold layerMus
  simp only [h.mixMus, alike_layerComposition h]

theorem alike_layerTransmissions (h : Library.Alike L M) (c : Config ℝ R) (l : Layer ℝ) (es : List ℝ) (angle : ℝ)
    (comp : SMap String ℝ) : layerTransmissions pf fuel L c l es angle comp = layerTransmissions pf fuel M c l es angle comp := by
  unfold layerTransmissions
  rw [alike_layerMus h]

theorem alike_layerTransmission (h : Library.Alike L M) (c : Config ℝ R) (l : Layer ℝ) (e : ℝ) (angle : ℝ)
    (comp : SMap String ℝ) : layerTransmission pf fuel L c l e angle comp = layerTransmission pf fuel M c l e angle comp := by
  unfold layerTransmission
  rw [alike_layerTransmissions h]

theorem alike_layerFamilies (h : Library.Alike L M) (srt : List (String × ℝ) → List (String × ℝ)) (c : Config ℝ R)
    (l : Layer ℝ) (e : ℝ) (comp : SMap String ℝ) : layerFamilies pf fuel L srt c l e comp = layerFamilies pf fuel M srt c l e comp := by
  unfold layerFamilies
  simp only [h.families, alike_layerComposition h]

theorem alike_filterLoop (h : Library.Alike L M) (c : Config ℝ R) (ls : List (Layer ℝ)) :
    ∀ rays, filterLoop pf fuel L c ls rays = filterLoop pf fuel M c ls rays := by
  induction ls with
  | nil => intro _; rfl
  | cons l ls ih => intro rays; unfold filterLoop; simp only [alike_layerTransmissions h, ih]

theorem alike_detectorIntrinsic (h : Library.Alike L M) (d : Layer ℝ) (e : ℝ) :
    detectorIntrinsic pf fuel L d e = detectorIntrinsic pf fuel M d e := by
  unfold detectorIntrinsic detectorMu
  simp only [h.mixMu, h.nameMu]

theorem alike_detectorEscape (h : Library.Alike L M) (hE : ∀ key x, L.getEscape pf fuel key x = M.getEscape pf fuel key x)
    (p : Detector.EscapeParams ℝ) (e : ℝ) : detectorEscape pf fuel L p e = detectorEscape pf fuel M p e := by
  unfold detectorEscape detectorComposition
  simp only [h.compMap, h.comp, hE]

theorem alike_threshold (h : Library.Alike L M) (el fam : String) : Xrf.getEnergyThreshold L el fam = Xrf.getEnergyThreshold M el fam := by
  unfold Xrf.getEnergyThreshold
  exact h.getElement el (fun a b hab => by rw [hab.binding])

theorem alike_env (h : Library.Alike L M) (hE : ∀ key x, L.getEscape pf fuel key x = M.getEscape pf fuel key x)
    (srt : List (String × ℝ) → List (String × ℝ)) (c : Config ℝ R) (comps : List (SMap String ℝ)) (geoms : List ℝ) :
    envOf pf fuel L srt c comps geoms = envOf pf fuel M srt c comps geoms := by
  unfold envOf
  simp only [alike_layerMu h, alike_layerMus h, alike_layerFamilies h, alike_layerTransmission h, alike_detectorIntrinsic h,
    alike_detectorEscape h hE, alike_threshold h]
  congr 1
  funext el e w
  exact h.getElement el (fun a b hab => hab.factors e w)

theorem alike_fluorescence (h : Library.Alike L M) (hE : ∀ key x, L.getEscape pf fuel key x = M.getEscape pf fuel key x)
    (srt : List (String × ℝ) → List (String × ℝ)) (c : Config ℝ R) (o : Options ℝ) (useGeometric : Bool)
    (overwriting : Beam ℝ) (reqs : List (Outcome Request)) :
    fluorescence pf fuel L srt c o useGeometric overwriting reqs = fluorescence pf fuel M srt c o useGeometric overwriting reqs := by
  unfold fluorescence
  simp only [alike_compositions h, alike_filterLoop h, alike_env h hE]

/-- **C128** (the fluorescence of a sample) Whatever calls are made on the caches of the library and its elements, the
fluorescence computed for any configuration, options, beam and requests is the same, and the same calls fail. -/
theorem C128_fluorescence (pf : String → Outcome (SMap String ℝ)) (fuel : Nat) {L : Library ℝ}
    (hc : Library.Cacheable L) (h0 : Library.Clear L) (ops : List (Library.Op ℝ)) (hops : ∀ op ∈ ops, op.OnCaches)
    (srt : List (String × ℝ) → List (String × ℝ)) (c : Config ℝ R) (o : Options ℝ) (useGeometric : Bool)
    (overwriting : Beam ℝ) (reqs : List (Outcome Request)) :
    fluorescence pf fuel (L.run pf fuel ops) srt c o useGeometric overwriting reqs
      = fluorescence pf fuel L srt c o useGeometric overwriting reqs := by
  have hexp : Element.ExpNonneg ℝ := fun x => (Real.exp_pos x).le
  have hV : Library.Valid pf fuel L (L.run pf fuel ops) := Library.Valid.run hexp hc h0 ops (Library.Valid.start h0) hops
  exact alike_fluorescence (hV.alike hexp hc h0) (fun key x => hV.getEscape hexp hc h0 key x) srt c o useGeometric overwriting reqs

end Multilayer

namespace Init

/-- **C128** The constructors give a library with nothing cached. -/
theorem C128_constructed {K : Type} [Field K] [LinearOrder K] [IsStrictOrderedRing K] [Trans K] (on : Bool) (key : EscapeKey K)
    (strtod : Str → K) (fs : Files) (dataDir dir binding cross : String) (pymca : Bool) (d : Database K)
    (h : construct1 on key strtod fs dataDir dir = .ok d ∨ construct2 on key strtod fs dir pymca = .ok d ∨
      construct3 on key strtod fs dir binding cross = .ok d) : Library.Clear d.lib := by
  obtain ⟨h1, h2⟩ := constructed_made h
  exact ⟨h2, fun e he => (h1 e he).cascade, fun e he => (h1 e he).mu, fun e he => (h1 e he).exc⟩

end Init

/-! ### An element the caches are meant for -/

namespace Element

attribute [local instance] exampleTrans

theorem exampleExp : ExpNonneg ℚ := by
  intro x
  show (0 : ℚ) ≤ if x < 0 then 0 else x + 1
  split_ifs with h
  · exact le_refl _
  · linarith [not_lt.1 h]

/-- All nine subshells, lines and tables. -/
def cacheExample : Element ℚ := run exampleElement (tableOps.take 12)

theorem cacheExample_cacheable : Cacheable cacheExample where
  keys := by decide +kernel
  transfers := by
    intro k j hj t ht
    have key : ∀ p ∈ cacheExample.shells, ∀ j ∈ Element.keys,
        (match transfer cacheExample.shells p.1 j with | .ok t => decide (0 ≤ t) | _ => true) = true := by
      decide +kernel
    unfold transfer at ht
    cases hs : cacheExample.shells.find? k with
    | none => rw [hs] at ht; cases ht
    | some s =>
      have h1 := key _ (SMap.mem_of_find? hs) j hj
      have h2 : transfer cacheExample.shells k j = .ok t := by unfold transfer; exact ht
      rw [h2] at h1
      simpa using h1
  clean := cleanShells_of_prefix (by unfold SMap.Sorted; decide +kernel)
  partials := by
    intro s l hl
    have key : ∀ p ∈ cacheExample.partialV, ∀ v ∈ p.2, 0 ≤ v := by decide +kernel
    exact key _ (SMap.mem_of_find? hl)
  lines := by
    intro s hs
    have key : ∀ s ∈ Element.keys, (getLines (bare cacheExample) [(s, 1)] true true).isOk = true := by decide +kernel
    have := key s hs
    cases h : getLines (bare cacheExample) [(s, 1)] true true with
    | ok l => exact ⟨l, rfl⟩
    | throw _ => rw [h] at this; cases this
    | ub _ => rw [h] at this; cases this
    | diverge => rw [h] at this; cases this

/-- It has factors at 8 keV, and a history with data in all caches. -/
example : cacheExample.cascadeCache = [] ∧ cacheExample.muCache = [] ∧ cacheExample.excCache = [] ∧
    (let e := run cacheExample [.setCascadeCacheEnabled true, .fillCache [8], .setCacheEnabled true, .emptyCascadeCache,
        .fillCascadeCache, .updateCache [8, 9]]
     e.cascadeCache.length = 9 ∧ e.muCache.length = 2 ∧ e.excCache.length = 2 ∧
     (e.getFactors 8 1).bind (fun r => .ok (r.map Prod.fst)) = .ok ["KL2".toList, "KL3".toList, "L3M5".toList]) := by
  decide +kernel

end Element
end Fisx
