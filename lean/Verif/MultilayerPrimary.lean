import Verif.MultilayerApi
import Mathlib.Analysis.SpecialFunctions.Integrals.Basic

/-!
# C71, C72: primary excitation and detection efficiency of `XRF::getMultilayerFluorescence`

Closed formulas for what the call returns, in terms of the configuration and the library only.
-/

set_option linter.unusedSectionVars false

namespace Fisx
namespace Multilayer

open Xrf (Request)

/-! ## Specification -/

section spec

variable {R : Type} (pf : String → Outcome (SMap String ℝ)) (fuel : Nat) (L : Library ℝ) (c : Config ℝ R)

/-- The mass fractions of the elements in layer `i` of the sample. -/
noncomputable def sampleComposition (i : Nat) : SMap String ℝ :=
  match c.sample[i]? with
  | none => []
  | some l =>
    match layerComposition pf fuel L c l with
    | .ok m => m
    | _ => []

/-- Total mass attenuation coefficient of layer `i` of the sample. -/
noncomputable def sampleMu (i : Nat) (e : ℝ) : ℝ :=
  match c.sample[i]? with
  | none => 0
  | some l => valueOr0 (do let m ← layerMu pf fuel L c l e (sampleComposition pf fuel L c i); return m.total)

/-- Mass thickness of layer `i` of the sample. -/
noncomputable def massThicknessOf (i : Nat) : ℝ :=
  match c.sample[i]? with
  | none => 0
  | some l => l.density * l.thickness

/-- The line `t` of an element excited by `w` photons of energy `e`. -/
noncomputable def excitedLine (el : String) (e w : ℝ) (t : Str) : Option (Factor ℝ) :=
  match (do let x ← L.getElement el; x.data.getFactors e w) with
  | .ok fs => fs.find? t
  | _ => none

noncomputable def sinIn : ℝ := Real.sin (c.alphaIn * (Real.pi / 180))
noncomputable def sinOut : ℝ := Real.sin (c.alphaOut * (Real.pi / 180))

/-- Fraction of the photons of energy `e` reaching layer `i`: Beer-Lambert along the incoming path. -/
noncomputable def reaching (i : Nat) (e : ℝ) : ℝ :=
  Real.exp (-((List.range i).map (fun j => massThicknessOf c j * sampleMu pf fuel L c j e)).sum / sinIn c)

/-- A request asks for the line `t` in layer `i` under the key `k`, and photons of energy `e` can excite it. -/
def Asked (req : Request) (k : String) (i : Nat) (t : Str) (e : ℝ) : Prop :=
  req.element ++ " " ++ req.family = k ∧ (req.layer < 0 ∨ req.layer = (i : Int)) ∧ inFamily req.family t = true ∧
  req.family ≠ "" ∧
  ∃ thr, Xrf.getEnergyThreshold L req.element (String.ofList ((actualFamily req.family).toList.take 1)) = .ok thr ∧ thr ≤ e

/-- The fraction of the layer the emission is proportional to: the mass fraction of the element, or 1 when the caller
asked for it. -/
noncomputable def elementFraction (o : Options ℝ) (i : Nat) (el : String) : ℝ :=
  if o.useMassFractions then ((sampleComposition pf fuel L c i).find? el).getD 0 else 1

open Classical in
/-- Primary fluorescence of a line produced by one ray because of one request: photons
reaching the layer, times the emission per unit of mass thickness, times the integral over the depth of the
attenuation of the incoming and outgoing radiation inside the layer. -/
noncomputable def primaryTerm (o : Options ℝ) (k : String) (i : Nat) (t : Str) (ray : ℝ × ℝ) (req : Request) : ℝ :=
  match excitedLine L req.element ray.1 ray.2 t with
  | none => 0
  | some f =>
    if Asked L req k i t ray.1 ∧ 0 < f.factor ∧ i < c.sample.length then
      let s := sampleMu pf fuel L c i ray.1 / sinIn c + sampleMu pf fuel L c i f.energy / sinOut c
      reaching pf fuel L c i ray.1 * (elementFraction pf fuel L c o i req.element / sinIn c) * f.rate *
        ((1 - Real.exp (-(s * massThicknessOf c i))) / s)
    else 0

end spec

/-- The last factor of `primaryTerm` is the integral over the depth (in mass thickness `d`) of the attenuation. -/
theorem depth_integral (s d : ℝ) (hs : s ≠ 0) :
    ∫ x in (0 : ℝ)..d, Real.exp (-(s * x)) = (1 - Real.exp (-(s * d))) / s := by
  have h : (fun x : ℝ => Real.exp (-(s * x))) = fun x => Real.exp ((-s) * x) := by funext x; ring_nf
  rw [h, intervalIntegral.integral_comp_mul_left (fun y => Real.exp y) (neg_ne_zero.mpr hs), integral_exp]
  simp only [mul_zero, Real.exp_zero, smul_eq_mul]
  rw [neg_mul]
  field_simp
  ring

/-! ## Lemmas -/

section lemmas

variable {R : Type} {pf : String → Outcome (SMap String ℝ)} {fuel : Nat} {L : Library ℝ}
  {srt : List (String × ℝ) → List (String × ℝ)} {c : Config ℝ R} {comps : List (SMap String ℝ)} {geoms : List ℝ}
  {g : Bool}

theorem vget_ok {α : Type} {l : List α} {i : Nat} {a : α} : vget l i = .ok a ↔ l[i]? = some a := by
  unfold vget
  cases l[i]? <;> simp

theorem compositions_get : ∀ (ls : List (Layer ℝ)) (comps : List (SMap String ℝ)), compositions pf fuel L c ls = .ok comps →
    comps.length = ls.length ∧
    ∀ (i : Nat) (l : Layer ℝ), ls[i]? = some l → ∃ m, comps[i]? = some m ∧ layerComposition pf fuel L c l = .ok m := by
  intro ls
  induction ls with
  | nil =>
    intro comps h
    simp only [compositions, Outcome.ok.injEq] at h
    subst h
    exact ⟨rfl, by simp⟩
  | cons a ls ih =>
    intro comps h
    unfold compositions at h
    obtain ⟨m, h1, h⟩ := Outcome.bind_eq_ok.mp h
    obtain ⟨r, h2, h⟩ := Outcome.bind_eq_ok.mp h
    simp only [Outcome.pure_eq, Outcome.ok.injEq] at h
    subst h
    obtain ⟨e1, e2⟩ := ih r h2
    refine ⟨by simp [e1], ?_⟩
    intro i l hl
    cases i with
    | zero =>
      simp only [List.getElem?_cons_zero, Option.some.injEq] at hl
      subst hl
      exact ⟨m, rfl, h1⟩
    | succ i => exact e2 i l (by simpa using hl)

theorem geometric_get : ∀ (ls : List (Layer ℝ)) (n : Nat) (geoms : List ℝ), geometricLoop c g n ls = .ok geoms →
    geoms.length = ls.length ∧
    ∀ (i : Nat) (q : ℝ), geoms[i]? = some q →
      (if g then Xrf.getGeometricEfficiency c ((n + i : Nat) : Int) else .ok 1) = .ok q := by
  intro ls
  induction ls with
  | nil =>
    intro n geoms h
    simp only [geometricLoop, Outcome.ok.injEq] at h
    subst h
    exact ⟨rfl, by simp⟩
  | cons a ls ih =>
    intro n geoms h
    unfold geometricLoop at h
    obtain ⟨q, h1, h⟩ := Outcome.bind_eq_ok.mp h
    obtain ⟨r, h2, h⟩ := Outcome.bind_eq_ok.mp h
    simp only [Outcome.pure_eq, Outcome.ok.injEq] at h
    subst h
    obtain ⟨e1, e2⟩ := ih (n + 1) r h2
    refine ⟨by simp [e1], ?_⟩
    intro i q' hq
    cases i with
    | zero =>
      simp only [List.getElem?_cons_zero, Option.some.injEq] at hq
      subst hq
      exact h1
    | succ i =>
      have := e2 i q' (by simpa using hq)
      rw [show n + (i + 1) = n + 1 + i by omega]
      exact this

/-- The layers of the environment. -/
theorem layers_get (hc : compositions pf fuel L c c.sample = .ok comps) (hg : geometricLoop c g 0 c.sample = .ok geoms)
    (i : Nat) (l : Layer ℝ) (hl : c.sample[i]? = some l) :
    ∃ m q, layerComposition pf fuel L c l = .ok m ∧ comps[i]? = some m ∧ geoms[i]? = some q ∧
      (if g then Xrf.getGeometricEfficiency c (i : Int) else .ok 1) = .ok q ∧
      (envOf pf fuel L srt c comps geoms).layers[i]? =
        some { density := l.density, thickness := l.thickness, composition := m, geometric := q } := by
  obtain ⟨a1, a2⟩ := compositions_get _ _ hc
  obtain ⟨b1, b2⟩ := geometric_get _ _ _ hg
  obtain ⟨m, h1, h2⟩ := a2 i l hl
  have hi : i < geoms.length := by
    rw [b1]
    exact (List.getElem?_eq_some_iff.mp hl).1
  refine ⟨m, geoms[i], h2, h1, List.getElem?_eq_getElem hi, ?_, ?_⟩
  · have := b2 i _ (List.getElem?_eq_getElem hi)
    simpa using this
  · show (layerData c.sample comps geoms)[i]? = _
    unfold layerData
    rw [List.getElem?_zipWith, hl]
    have : (comps.zip geoms)[i]? = some (m, geoms[i]) := by
      rw [List.getElem?_zip_eq_some]
      exact ⟨h1, List.getElem?_eq_getElem hi⟩
    rw [this]

theorem layers_get_inv (hc : compositions pf fuel L c c.sample = .ok comps) (hg : geometricLoop c g 0 c.sample = .ok geoms)
    (i : Nat) (l' : LayerData ℝ) (hl : (envOf pf fuel L srt c comps geoms).layers[i]? = some l') :
    ∃ l q, c.sample[i]? = some l ∧ layerComposition pf fuel L c l = .ok l'.composition ∧
      (if g then Xrf.getGeometricEfficiency c (i : Int) else .ok 1) = .ok q ∧
      l' = { density := l.density, thickness := l.thickness, composition := l'.composition, geometric := q } := by
  cases h : c.sample[i]? with
  | none =>
    exfalso
    change (layerData c.sample comps geoms)[i]? = _ at hl
    unfold layerData at hl
    rw [List.getElem?_zipWith, h] at hl
    cases hl
  | some l =>
    obtain ⟨m, q, h1, -, -, h3, h4⟩ := layers_get (srt := srt) hc hg i l h
    rw [h4] at hl
    simp only [Option.some.injEq] at hl
    subst hl
    exact ⟨l, q, rfl, h1, h3, rfl⟩

theorem sampleComposition_eq {i : Nat} {l : Layer ℝ} {m : SMap String ℝ} (hl : c.sample[i]? = some l)
    (hm : layerComposition pf fuel L c l = .ok m) : sampleComposition pf fuel L c i = m := by
  unfold sampleComposition
  rw [hl]
  simp only [hm]

/-- The coefficients used in the calculation. -/
theorem env_mu_eq (hc : compositions pf fuel L c c.sample = .ok comps) {i : Nat} {e m : ℝ}
    (h : (envOf pf fuel L srt c comps geoms).mu i e = .ok m) : sampleMu pf fuel L c i e = m := by
  change (do let l ← vget c.sample i; let m ← vget comps i; let r ← layerMu pf fuel L c l e m; return r.total) = _ at h
  obtain ⟨l, h1, h⟩ := Outcome.bind_eq_ok.mp h
  obtain ⟨q, h2, h⟩ := Outcome.bind_eq_ok.mp h
  rw [vget_ok] at h1 h2
  obtain ⟨-, a2⟩ := compositions_get _ _ hc
  obtain ⟨q', h3, h4⟩ := a2 i l h1
  rw [h2] at h3
  cases h3
  unfold sampleMu
  rw [h1]
  simp only [sampleComposition_eq h1 h4]
  rw [h]
  rfl

theorem incident_get (env : Env ℝ) (e : ℝ) (M : Nat → ℝ → ℝ) (hM : ∀ i e m, env.mu i e = .ok m → M i e = m) :
    ∀ (ls : List (LayerData ℝ)) (i : Nat) (acc : ℝ) (inc : List (ℝ × ℝ)), incident env e i ls acc = .ok inc →
    ∀ (n : Nat) (p : ℝ × ℝ), inc[n]? = some p →
      p = (if i + n = 0 then 1 else env.exp (-(acc + ((List.range n).map (fun j =>
        ((ls[j]?.map (fun l => l.density * l.thickness)).getD 0) * M (i + j) e / env.sinIn)).sum)), M (i + n) e) := by
  intro ls
  induction ls with
  | nil =>
    intro i acc inc h n p hp
    simp only [incident, Outcome.ok.injEq] at h
    subst h
    cases hp
  | cons l ls ih =>
    intro i acc inc h n p hp
    unfold incident at h
    obtain ⟨m, h1, h⟩ := Outcome.bind_eq_ok.mp h
    obtain ⟨r, h2, h⟩ := Outcome.bind_eq_ok.mp h
    simp only [Outcome.pure_eq, Outcome.ok.injEq] at h
    subst h
    cases n with
    | zero =>
      simp only [List.getElem?_cons_zero, Option.some.injEq] at hp
      subst hp
      have := hM _ _ _ h1
      simp [this]
    | succ n =>
      have := ih (i + 1) _ r h2 n p (by simpa using hp)
      rw [this, List.range_succ_eq_map, List.map_cons, List.sum_cons, List.map_map]
      have e1 : i + 1 + n = i + (n + 1) := by omega
      rw [e1, hM _ _ _ h1 |>.symm]
      have e2 : ∀ j, i + 1 + j = i + Nat.succ j := by intro j; omega
      simp only [Function.comp_def, e2, List.getElem?_cons_succ, List.getElem?_cons_zero, Option.map_some,
        Option.getD_some, Nat.add_zero]
      rw [add_assoc]

/-- The part of a beam reaching a layer. -/
theorem reaching_eq (hc : compositions pf fuel L c c.sample = .ok comps) (hg : geometricLoop c g 0 c.sample = .ok geoms)
    {e : ℝ} {inc : List (ℝ × ℝ)}
    (h : incident (envOf pf fuel L srt c comps geoms) e 0 (envOf pf fuel L srt c comps geoms).layers 0 = .ok inc)
    {i : Nat} {lw m : ℝ} (hi : vget inc i = .ok (lw, m)) : lw = reaching pf fuel L c i e := by
  rw [vget_ok] at hi
  have := incident_get _ e (sampleMu pf fuel L c) (fun i e m hm => env_mu_eq hc hm) _ 0 0 inc h i _ hi
  simp only [zero_add, Prod.mk.injEq] at this
  rw [this.1]
  have hth : ∀ j, ((envOf pf fuel L srt c comps geoms).layers[j]?.map (fun l => l.density * l.thickness)).getD 0 =
      massThicknessOf c j := by
    intro j
    unfold massThicknessOf
    cases hj : c.sample[j]? with
    | none =>
      have : (envOf pf fuel L srt c comps geoms).layers[j]? = none := by
        change (layerData c.sample comps geoms)[j]? = _
        unfold layerData
        rw [List.getElem?_zipWith, hj]
      rw [this]; rfl
    | some l =>
      obtain ⟨m, q, -, -, -, -, h4⟩ := layers_get (srt := srt) hc hg j l hj
      rw [h4]; rfl
  unfold reaching
  simp only [hth]
  have hsin : (envOf pf fuel L srt c comps geoms).sinIn = sinIn c := rfl
  rw [hsin]
  have hsum : ((List.range i).map (fun j => massThicknessOf c j * sampleMu pf fuel L c j e / sinIn c)).sum =
      ((List.range i).map (fun j => massThicknessOf c j * sampleMu pf fuel L c j e)).sum / sinIn c := by
    induction List.range i with
    | nil => simp
    | cons a l ih => simp only [List.map_cons, List.sum_cons, ih, add_div]
  split
  · rename_i h0
    subst h0
    simp
  · show Real.exp _ = _
    rw [hsum, neg_div]

theorem excitedLine_eq {el : String} {e w : ℝ} {fs : SMap Str (Factor ℝ)}
    (h : (envOf pf fuel L srt c comps geoms).excite el e w = .ok fs) (t : Str) : excitedLine L el e w t = fs.find? t := by
  change (do let x ← L.getElement el; x.data.getFactors e w) = _ at h
  unfold excitedLine
  rw [h]

/-- What a request adds to the primary excitation. -/
theorem reqYield_primary (hL : SoundLibrary pf fuel L) (hc : compositions pf fuel L c c.sample = .ok comps)
    (hg : geometricLoop c g 0 c.sample = .ok geoms) (o : Options ℝ) (k : String) (i : Nat) (t : Str) (ray : ℝ × ℝ)
    (req : Request) (y : Amount ℝ) (h : ReqYield (envOf pf fuel L srt c comps geoms) o k i t ray req y) :
    y.1 = primaryTerm pf fuel L c o k i t ray req := by
  rcases h with ⟨hthr, rfl⟩ | ⟨thr, fs, m, rd, hthr, hgt, hex, -, hrd, hcell⟩
  · unfold primaryTerm
    split
    · rfl
    · rw [if_neg]
      · rfl
      · rintro ⟨⟨-, -, -, hf, thr, h1, h2⟩, -, -⟩
        refine absurd (hthr thr ?_) (not_lt.mpr h2)
        unfold thresholdFor
        rw [if_neg hf]
        exact h1
  have hreg := env_regular (srt := srt) (c := c) (comps := comps) (geoms := geoms) hL
  have hsort := hreg.factors _ _ _ _ hex
  have hfam : req.family ≠ "" := by
    rintro h0
    unfold thresholdFor at hthr
    rw [if_pos h0] at hthr
    cases hthr
  have hthr' : Xrf.getEnergyThreshold L req.element (String.ofList ((actualFamily req.family).toList.take 1)) = .ok thr := by
    unfold thresholdFor at hthr
    rw [if_neg hfam] at hthr
    exact hthr
  unfold primaryTerm
  rw [excitedLine_eq hex]
  rcases hcell with ⟨hno, rfl⟩ | ⟨hk, l', f, hl', hact, hsel, mT, muIn, lw, mu0, cs, e1, e2, e3, -, rfl⟩
  · cases hf : SMap.find? fs t with
    | none => rfl
    | some f =>
      dsimp only
      split
      · rename_i hcond
        obtain ⟨⟨hk, hlay, hin, -, -⟩, hpos, hi⟩ := hcond
        obtain ⟨mm, q, h1, h2, -, -, h4⟩ := layers_get (srt := srt) hc hg i _ (List.getElem?_eq_getElem hi)
        have hsel : (t, f) ∈ selected req.family fs := by
          unfold selected
          rw [List.mem_filter]
          refine ⟨SMap.mem_of_find? hf, ?_⟩
          simp [hin, not_le.mpr hpos]
        have hfr : elementFraction pf fuel L c o i req.element = 0 := by
          by_contra hne
          refine hno ⟨hk, _, h4, ⟨?_, ?_, List.ne_nil_of_mem hsel⟩, List.mem_map.mpr ⟨_, hsel, rfl⟩⟩
          · rintro ⟨a, b⟩
            rcases hlay with hlay | hlay
            · omega
            · exact b hlay.symm
          · intro h0
            apply hne
            unfold elementFraction
            unfold fracOf at h0
            rw [sampleComposition_eq (List.getElem?_eq_getElem hi) h1]
            exact h0
        rw [hfr]
        show (0 : ℝ) = _
        simp
      · rfl
  · have hf : SMap.find? fs t = some f := SMap.find?_of_mem hsort (List.mem_of_mem_filter hsel)
    obtain ⟨l, q, h1, h2, h3, h4⟩ := layers_get_inv (srt := srt) hc hg i l' hl'
    obtain ⟨r1, r2, r3, -, -⟩ := rayData_parts hrd
    have hlw := reaching_eq (srt := srt) hc hg r3 e3
    have hT := env_mu_eq hc e1
    have hE := env_mu_eq hc e2
    rw [r1] at hE
    rw [hf]
    dsimp only
    have hs2 : inFamily req.family t = true ∧ 0 < f.factor := by
      unfold selected at hsel
      have := (List.mem_filter.mp hsel).2
      simp only [Bool.and_eq_true, decide_eq_true_eq, not_le] at this
      exact this
    rw [if_pos]
    · have hfr : fracOf o l' req.element = elementFraction pf fuel L c o i req.element := by
        unfold fracOf elementFraction
        rw [sampleComposition_eq h1 h2]
      have hd : l'.density = l.density := by rw [h4]
      have ht : l'.thickness = l.thickness := by rw [h4]
      have hmt : massThicknessOf c i = l'.density * l'.thickness := by
        unfold massThicknessOf
        rw [h1, hd, ht]
      show (primaryOf _ l' muIn lw (fracOf o l' req.element) (freshTmp f mT)).primary = _
      unfold primaryOf freshTmp
      dsimp only
      rw [hfr, hlw, ← hT, ← hE, hmt]
      show (1 - Real.exp _) / (_ / sinIn c + _ / sinOut c) * (_ / sinIn c) * _ * _ = _
      have ha : -(sampleMu pf fuel L c i ray.1 / sinIn c + sampleMu pf fuel L c i f.energy / sinOut c) * l'.density * l'.thickness =
          -((sampleMu pf fuel L c i ray.1 / sinIn c + sampleMu pf fuel L c i f.energy / sinOut c) * (l'.density * l'.thickness)) := by ring
      have hb : (envOf pf fuel L srt c comps geoms).sinIn = sinIn c := rfl
      have hb' : (envOf pf fuel L srt c comps geoms).sinOut = sinOut c := rfl
      rw [hb, hb', ha]
      ring
    · refine ⟨⟨hk, ?_, hs2.1, hfam, thr, hthr', not_lt.mp hgt⟩, hs2.2, (List.getElem?_eq_some_iff.mp h1).1⟩
      have := hact.1
      by_contra hh
      push Not at hh
      exact this ⟨hh.1, fun e => hh.2 e.symm⟩

end lemmas

/-! ### Which lines there are -/

section occurrence

variable {K : Type} [Field K] [LinearOrder K] [IsStrictOrderedRing K]

/-- A cell of the calculation emits the line. -/
def EmitsCell (env : Env K) (o : Options K) (req : Request) (fs : SMap Str (Factor K)) (k : String) (i : Nat) (t : Str) :
    Prop :=
  keyOf req = k ∧ ∃ l, env.layers[i]? = some l ∧ Active o req i l fs ∧ t ∈ (selected req.family fs).map Prod.fst

/-- A ray and a request give the line. -/
def Emits (env : Env K) (o : Options K) (k : String) (i : Nat) (t : Str) (ray : K × K) (req : Request) : Prop :=
  ∃ thr fs, thresholdFor env req = .ok thr ∧ thr ≤ ray.1 ∧ env.excite req.element ray.1 ray.2 = .ok fs ∧
    EmitsCell env o req fs k i t

theorem cell_occurs {env : Env K} (hreg : Regular env) (o : Options K) (rd : RayData K) (req : Request) (thr : K)
    (factors : SMap Str (Factor K)) (i : Nat) (l : LayerData K) (hl : env.layers[i]? = some l) (r r' : Result K)
    {e w : K} (hex : env.excite req.element e w = .ok factors)
    (h : cell env o rd req thr factors i l r = .ok r') (k : String) (i' : Nat) (t : Str) (ht : Plain t) :
    (leaf? r' k i' t).isSome ↔ (leaf? r k i' t).isSome ∨ (i = i' ∧ EmitsCell env o req factors k i t) := by
  have hf : SMap.Sorted factors := hreg.factors _ _ _ _ hex
  have hpl : ∀ t ∈ factors.map Prod.fst, Plain t := hreg.names _ _ _ _ hex
  rcases cell_spec env o rd req thr factors i l r r' (fun e esc he => SMap.keys_nodup (hreg.escape e esc he))
    (SMap.keys_nodup hf) hpl h with ⟨hna, rfl⟩ | ⟨ha, muIn, lw, mu0, lines, cs, g1, g2, h1, g3, h2, h3, h4⟩
  · constructor
    · exact Or.inl
    · rintro (hh | ⟨-, -, l', hl', ha, -⟩)
      · exact hh
      · rw [hl] at hl'
        exact absurd (Option.some.inj hl' ▸ ha) hna
  · by_cases hh : keyOf req = k ∧ i = i' ∧ t ∈ (selected req.family factors).map Prod.fst
    · obtain ⟨rfl, rfl, hts⟩ := hh
      have hts' := hts
      rw [← h1] at hts
      obtain ⟨⟨t', p⟩, hpm, rfl⟩ := List.mem_map.mp hts
      obtain ⟨f, l0, esc, hfm, rfl, he⟩ := h2 _ _ hpm
      rw [he.line]
      exact ⟨fun _ => Or.inr ⟨rfl, rfl, l, hl, ha, hts'⟩, fun _ => rfl⟩
    · rw [h3 k i' t]
      · constructor
        · exact Or.inl
        · rintro (hx | ⟨rfl, hk, l', hl', ha', hts⟩)
          · exact hx
          · exact absurd ⟨hk, rfl, hts⟩ hh
      · rintro ⟨rfl, rfl, h5 | ⟨u, hu, m, rfl⟩⟩
        · exact hh ⟨rfl, rfl, h5⟩
        · exact not_plain_escName _ _ ht

theorem cellLoop_occurs {env : Env K} (hreg : Regular env) (o : Options K) (rd : RayData K) (req : Request) (thr : K)
    (factors : SMap Str (Factor K)) {e w : K} (hex : env.excite req.element e w = .ok factors) (k : String) (i' : Nat)
    (t : Str) (ht : Plain t) :
    ∀ (ls : List (LayerData K)) (i : Nat) (r r' : Result K), env.layers.drop i = ls →
      cellLoop env o rd req thr factors i ls r = .ok r' →
      ((leaf? r' k i' t).isSome ↔ (leaf? r k i' t).isSome ∨ (i ≤ i' ∧ EmitsCell env o req factors k i' t)) := by
  intro ls
  induction ls with
  | nil =>
    intro i r r' hd h
    simp only [cellLoop, Outcome.ok.injEq] at h
    subst h
    constructor
    · exact Or.inl
    · rintro (hh | ⟨hi, -, l, hl, -⟩)
      · exact hh
      · have := List.drop_eq_nil_iff.mp hd
        rw [List.getElem?_eq_none (by omega)] at hl
        cases hl
  | cons l rest ih =>
    intro i r r' hd h
    rw [cellLoop] at h
    obtain ⟨r1, h1, h⟩ := Outcome.bind_eq_ok.mp h
    have hl : env.layers[i]? = some l := by
      have := congrArg List.head? hd
      simpa [List.head?_drop] using this
    have hd' : env.layers.drop (i + 1) = rest := by
      have := congrArg List.tail hd
      simpa [List.tail_drop] using this
    rw [ih (i + 1) r1 r' hd' h, cell_occurs hreg o rd req thr factors i l hl r r1 hex h1 k i' t ht]
    constructor
    · rintro ((hh | ⟨rfl, hh⟩) | ⟨hi, hh⟩)
      · exact Or.inl hh
      · exact Or.inr ⟨le_refl _, hh⟩
      · exact Or.inr ⟨by omega, hh⟩
    · rintro (hh | ⟨hi, hh⟩)
      · exact Or.inl (Or.inl hh)
      · rcases eq_or_lt_of_le hi with rfl | hi
        · exact Or.inl (Or.inr ⟨rfl, hh⟩)
        · exact Or.inr ⟨hi, hh⟩

theorem requestLoop_occurs {env : Env K} (hreg : Regular env) (o : Options K) (m e w : K) (rd : RayData K)
    (hrd : rayData env o m e w = .ok rd) (reqs : List Request) (k : String) (i : Nat) (t : Str) (htp : Plain t) :
    ∀ (rest : List Request) (n : Nat) (thrs thrs' : List K) (r r' : Result K), reqs.drop n = rest →
      ThrOk env reqs thrs → n ≤ thrs.length →
      requestLoop env o rd n (rest.map .ok) thrs r = .ok (thrs', r') →
      ThrOk env reqs thrs' ∧ reqs.length ≤ thrs'.length ∧
      ((leaf? r' k i t).isSome ↔ (leaf? r k i t).isSome ∨ ∃ req ∈ rest, Emits env o k i t (e, w) req) := by
  have hrde : rd.energy = e := (rayData_parts hrd).1
  have hrdw : rd.weight = w := (rayData_parts hrd).2.1
  intro rest
  induction rest with
  | nil =>
    intro n thrs thrs' r r' hd ht hn h
    simp only [List.map_nil, requestLoop, Outcome.ok.injEq, Prod.mk.injEq] at h
    obtain ⟨rfl, rfl⟩ := h
    have := List.drop_eq_nil_iff.mp hd
    exact ⟨ht, by omega, by simp⟩
  | cons req rest ih =>
    intro n thrs thrs' r r' hd ht hn h
    rw [List.map_cons, requestLoop] at h
    simp only [Outcome.ok_bind] at h
    obtain ⟨⟨thr, thrs1⟩, h2, h⟩ := Outcome.bind_eq_ok.mp h
    simp only at h
    have hreq : reqs[n]? = some req := by
      have := congrArg List.head? hd
      simpa [List.head?_drop] using this
    have hd' : reqs.drop (n + 1) = rest := by
      have := congrArg List.tail hd
      simpa [List.tail_drop] using this
    obtain ⟨a1, a2, a3⟩ := thresholdOf_spec hreq ht hn h2
    by_cases hlt : thr > rd.energy
    · rw [if_pos hlt] at h
      obtain ⟨b2, b3, b4⟩ := ih (n + 1) thrs1 thrs' r r' hd' a2 a3 h
      refine ⟨b2, b3, ?_⟩
      rw [b4]
      constructor
      · rintro (hh | ⟨q, hq, hh⟩)
        · exact Or.inl hh
        · exact Or.inr ⟨q, List.mem_cons_of_mem _ hq, hh⟩
      · rintro (hh | ⟨q, hq, hh⟩)
        · exact Or.inl hh
        · rcases List.mem_cons.mp hq with rfl | hq
          · obtain ⟨thr', fs, e1, e2, -⟩ := hh
            rw [a1] at e1
            cases e1
            rw [hrde] at hlt
            exact absurd e2 (not_le.mpr hlt)
          · exact Or.inr ⟨q, hq, hh⟩
    · rw [if_neg hlt] at h
      obtain ⟨fs, h3, h⟩ := Outcome.bind_eq_ok.mp h
      obtain ⟨r1, h4, h⟩ := Outcome.bind_eq_ok.mp h
      have c2 := cellLoop_occurs hreg o rd req thr fs h3 k i t htp _ 0 r r1 rfl h4
      obtain ⟨b2, b3, b4⟩ := ih (n + 1) thrs1 thrs' r1 r' hd' a2 a3 h
      refine ⟨b2, b3, ?_⟩
      rw [b4, c2]
      rw [hrde] at hlt h3
      rw [hrdw] at h3
      constructor
      · rintro ((hh | ⟨-, hh⟩) | ⟨q, hq, hh⟩)
        · exact Or.inl hh
        · exact Or.inr ⟨req, List.mem_cons_self, thr, fs, a1, not_lt.mp hlt, h3, hh⟩
        · exact Or.inr ⟨q, List.mem_cons_of_mem _ hq, hh⟩
      · rintro (hh | ⟨q, hq, hh⟩)
        · exact Or.inl (Or.inl hh)
        · rcases List.mem_cons.mp hq with rfl | hq
          · obtain ⟨thr', fs', e1, e2, e3, e4⟩ := hh
            rw [h3] at e3
            cases e3
            exact Or.inl (Or.inr ⟨Nat.zero_le _, e4⟩)
          · exact Or.inr ⟨q, hq, hh⟩

theorem rayLoop_occurs {env : Env K} {mix : Nat → K → Outcome (Mix K)} (hc : Consistent env mix)
    (hreg : Regular env) (o : Options K) (reqs : List Request) (k : String) (i : Nat) (t : Str) (htp : Plain t) :
    ∀ (rays : List (K × K)) (thrs : List K) (m : K) (r r' : Result K), ThrOk env reqs thrs →
      (thrs = [] ∨ reqs.length ≤ thrs.length) →
      (∀ req ∈ reqs, ∀ thr, thresholdFor env req = .ok thr → m ≤ thr) →
      rayLoop env o (reqs.map .ok) rays thrs m r = .ok r' →
      ((leaf? r' k i t).isSome ↔ (leaf? r k i t).isSome ∨ ∃ ray ∈ rays, ∃ req ∈ reqs, Emits env o k i t ray req) := by
  intro rays
  induction rays with
  | nil =>
    intro thrs m r r' _ _ _ h
    simp only [rayLoop, Outcome.ok.injEq] at h
    subst h
    simp
  | cons ray rest ih =>
    obtain ⟨e, w⟩ := ray
    intro thrs m r r' ht hcomp hm h
    rw [rayLoop] at h
    simp only at h
    have hm' := minimumThreshold_le hc ht hcomp hm
    split at h
    · rename_i hlt
      rw [ih thrs _ r r' ht hcomp hm' h]
      constructor
      · rintro (hh | ⟨q, hq, hh⟩)
        · exact Or.inl hh
        · exact Or.inr ⟨q, List.mem_cons_of_mem _ hq, hh⟩
      · rintro (hh | ⟨q, hq, req, hr, hh⟩)
        · exact Or.inl hh
        · rcases List.mem_cons.mp hq with rfl | hq
          · obtain ⟨thr', fs', e1, e2, -⟩ := hh
            exact absurd (lt_of_lt_of_le hlt (hm' req hr thr' e1)) (not_lt.mpr e2)
          · exact Or.inr ⟨q, hq, req, hr, hh⟩
    · obtain ⟨rd, h1, h⟩ := Outcome.bind_eq_ok.mp h
      obtain ⟨⟨thrs1, r1⟩, h2, h⟩ := Outcome.bind_eq_ok.mp h
      obtain ⟨a2, a3, a4⟩ := requestLoop_occurs hreg o _ e w rd h1 reqs k i t htp reqs 0 thrs thrs1 r r1 rfl ht
        (Nat.zero_le _) h2
      rw [ih thrs1 _ r1 r' a2 (Or.inr a3) hm' h, a4]
      constructor
      · rintro ((hh | hh) | ⟨q, hq, hh⟩)
        · exact Or.inl hh
        · exact Or.inr ⟨_, List.mem_cons_self, hh⟩
        · exact Or.inr ⟨q, List.mem_cons_of_mem _ hq, hh⟩
      · rintro (hh | ⟨q, hq, hh⟩)
        · exact Or.inl (Or.inl hh)
        · rcases List.mem_cons.mp hq with rfl | hq
          · exact Or.inl (Or.inr hh)
          · exact Or.inr ⟨q, hq, hh⟩

/-- A line is in the result if and only if some ray and some request give it. -/
theorem calculate_occurs {env : Env K} {mix : Nat → K → Outcome (Mix K)} (hc : Consistent env mix)
    (hreg : Regular env) (o : Options K) (reqs : List Request) (rays : List (K × K)) (r : Result K)
    (h : calculate env o (reqs.map .ok) rays = .ok r) (k : String) (i : Nat) (t : Str) (htp : Plain t) :
    (leaf? r k i t).isSome ↔ ∃ ray ∈ rays, ∃ req ∈ reqs, Emits env o k i t ray req := by
  unfold calculate at h
  obtain ⟨r0, h1, h⟩ := Outcome.bind_eq_ok.mp h
  simp only [Outcome.pure_eq, Outcome.ok.injEq] at h
  have key := rayLoop_occurs hc hreg o reqs k i t htp rays.reverse [] (-1) [] r0
    (fun n t hh => by simp at hh) (Or.inl rfl) (by
      intro req _ thr hthr
      unfold thresholdFor at hthr
      split at hthr
      · cases hthr
      · exact le_trans (by norm_num) (hc.threshold _ _ _ hthr)) h1
  have h0 : (leaf? ([] : Result K) k i t).isSome = false := rfl
  rw [h0] at key
  simp only [Bool.false_eq_true, false_or, List.mem_reverse] at key
  rw [← key]
  split at h
  · subst h
    have hs := (inv_rayLoop env hreg o _ _ _ _ _ _ (inv_nil env) h1).sorted
    rcases tertiary_leaf hs k i t with ⟨h2, h3⟩ | ⟨l0, l', h2, h3, -⟩
    · rw [h2, h3]
    · rw [h2, h3]; simp
  · subst h
    rfl

/-! ### The factors of the efficiency -/

theorem upperLoop_ok (env : Env K) (e : K) : ∀ (n : Nat) (d v : K), upperLoop env e n d = .ok v →
    ∃ T : Nat → K, (∀ j < n, env.transmission j e = .ok (T j)) ∧ v = d * ((List.range n).map T).prod := by
  intro n
  induction n with
  | zero =>
    intro d v h
    simp only [upperLoop, Outcome.ok.injEq] at h
    subst h
    exact ⟨fun _ => 0, by simp, by simp⟩
  | succ n ih =>
    intro d v h
    unfold upperLoop at h
    obtain ⟨q, h1, h⟩ := Outcome.bind_eq_ok.mp h
    obtain ⟨T, h2, h3⟩ := ih _ _ h
    refine ⟨fun j => if j = n then q else T j, ?_, ?_⟩
    · intro j hj
      by_cases hjn : j = n
      · subst hjn; simpa using h1
      · simp only [hjn, if_false]
        exact h2 j (by omega)
    · rw [h3, List.range_succ, List.map_append, List.prod_append]
      have : (List.range n).map (fun j => if j = n then q else T j) = (List.range n).map T := by
        apply List.map_congr_left
        intro j hj
        have := List.mem_range.mp hj
        rw [if_neg (by omega)]
      rw [this]
      simp
      ring

theorem attenuatorLoop_ok (e : K) : ∀ (as : List (K → Outcome K)) (d v : K), attenuatorLoop e as d = .ok v →
    ∃ A, List.Forall₂ (fun a q => a e = .ok q) as A ∧ v = d * A.prod := by
  intro as
  induction as with
  | nil =>
    intro d v h
    simp only [attenuatorLoop, Outcome.ok.injEq] at h
    subst h
    exact ⟨[], List.Forall₂.nil, by simp⟩
  | cons a as ih =>
    intro d v h
    unfold attenuatorLoop at h
    obtain ⟨q, h1, h⟩ := Outcome.bind_eq_ok.mp h
    obtain ⟨A, h2, h3⟩ := ih _ _ h
    exact ⟨q :: A, List.Forall₂.cons h1 h2, by rw [h3, List.prod_cons]; ring⟩

theorem tables_foldl (e : K) : ∀ (ts : List (K → K)) (d : K),
    ts.foldl (fun d t => d * t e) d = d * (ts.map (fun t => t e)).prod := by
  intro ts
  induction ts with
  | nil => intro d; simp
  | cons a ts ih => intro d; rw [List.foldl_cons, ih, List.map_cons, List.prod_cons]; ring

end occurrence

/-! ## The properties of the call -/

section api

variable {R : Type} (pf : String → Outcome (SMap String ℝ)) (fuel : Nat) (L : Library ℝ)
  (srt : List (String × ℝ) → List (String × ℝ)) (c : Config ℝ R) (o : Options ℝ) (g : Bool)

/-- **C71** The primary excitation returned for a line is the sum over the rays of the beam (attenuated by the filters) and
over the requests of the textbook formula; a line that is not returned has none. -/
theorem C71_primary (hL : SoundLibrary pf fuel L) (reqs : List Request) (hp : ∀ q ∈ reqs, ' ' ∉ q.element.toList)
    (b : Beam ℝ) (r : Result ℝ) (h : fluorescence pf fuel L srt c o g b (reqs.map .ok) = .ok r) (k : String) (i : Nat)
    (t : Str) (ht : ' ' ∉ t) :
    ((leaf? r k i t).map Leaf.primary).getD 0 =
      ((usedBeam c b).map (fun ray => (reqs.map (primaryTerm pf fuel L c o k i t (behind pf fuel L c ray))).sum)).sum := by
  obtain ⟨comps, geoms, h1, h2, h3⟩ := fluorescence_ok h
  obtain ⟨-, hy⟩ := calculate_amount (env_consistent hL) (env_regular hL) o reqs hp _ r h3
  obtain ⟨ys, y1, y2⟩ := hy k i t ht
  have hfst : ((leaf? r k i t).map Leaf.primary).getD 0 = (amount (leaf? r k i t)).1 := by
    cases leaf? r k i t <;> rfl
  have hsum : ∀ l : List (Amount ℝ), l.sum.1 = (l.map Prod.fst).sum := by
    intro l
    induction l with
    | nil => rfl
    | cons a l ih => rw [List.sum_cons, List.map_cons, List.sum_cons, ← ih]; rfl
  have hray : ∀ ray y, RayYield (envOf pf fuel L srt c comps geoms) o k i t reqs ray y →
      y.1 = (reqs.map (primaryTerm pf fuel L c o k i t ray)).sum := by
    rintro ray y ⟨zs, z1, rfl⟩
    rw [hsum]
    congr 1
    clear y2 y1 hy h3 h hp
    induction z1 with
    | nil => rfl
    | cons a _ ih =>
      rw [List.map_cons, List.map_cons, reqYield_primary hL h1 h2 o k i t ray _ _ a]
      exact congrArg _ ih
  rw [hfst, y2, hsum]
  have hl : ys.map Prod.fst = ((usedBeam c b).map (behind pf fuel L c)).reverse.map
      (fun ray => (reqs.map (primaryTerm pf fuel L c o k i t ray)).sum) := by
    clear y2 hfst h3 h
    generalize ((usedBeam c b).map (behind pf fuel L c)).reverse = rays at y1
    induction y1 with
    | nil => rfl
    | cons a _ ih => rw [List.map_cons, List.map_cons, hray _ _ a, ih]
  rw [hl, List.map_reverse, List.sum_reverse, List.map_map]
  rfl

/-- **C71** In particular a line has no primary excitation by photons below the threshold, outside of the requested layer or
family, or of an element that is not there. -/
theorem C71_no_primary (req : Request) (k : String) (i : Nat) (t : Str) (ray : ℝ × ℝ)
    (h : ¬ Asked L req k i t ray.1 ∨ ¬ i < c.sample.length ∨ elementFraction pf fuel L c o i req.element = 0) :
    primaryTerm pf fuel L c o k i t ray req = 0 := by
  unfold primaryTerm
  split
  · rfl
  · dsimp only
    split
    · rename_i hh
      rcases h with h | h | h
      · exact absurd hh.1 h
      · exact absurd hh.2.2 h
      · rw [h]; simp
    · rfl

/-- **C72** The lines in the result are exactly those that some ray excites and some request asks for, in layers containing the
element (all layers when mass fractions are not to be used). -/
theorem C72_lines (hL : SoundLibrary pf fuel L) (reqs : List Request) (b : Beam ℝ) (r : Result ℝ)
    (h : fluorescence pf fuel L srt c o g b (reqs.map .ok) = .ok r) (k : String) (i : Nat) (t : Str) (ht : ' ' ∉ t) :
    (leaf? r k i t).isSome ↔ ∃ ray ∈ usedBeam c b, ∃ req ∈ reqs, ∃ f,
      excitedLine L req.element (behind pf fuel L c ray).1 (behind pf fuel L c ray).2 t = some f ∧ 0 < f.factor ∧
      Asked L req k i t ray.1 ∧ i < c.sample.length ∧ elementFraction pf fuel L c o i req.element ≠ 0 := by
  obtain ⟨comps, geoms, h1, h2, h3⟩ := fluorescence_ok h
  rw [calculate_occurs (env_consistent hL) (env_regular hL) o reqs _ r h3 k i t ht]
  constructor
  · rintro ⟨ray', hr, req, hq, thr, fs, e1, e2, e3, hk, l', hl', hact, hts⟩
    obtain ⟨ray, hray, rfl⟩ := List.mem_map.mp hr
    obtain ⟨⟨t', f⟩, hsel, rfl⟩ := List.mem_map.mp hts
    have hsort := (env_regular (srt := srt) (c := c) (comps := comps) (geoms := geoms) hL).factors _ _ _ _ e3
    obtain ⟨l, q, g1, g2, -, -⟩ := layers_get_inv (srt := srt) h1 h2 i l' hl'
    unfold selected at hsel
    obtain ⟨m1, m2⟩ := List.mem_filter.mp hsel
    simp only [Bool.and_eq_true, decide_eq_true_eq, not_le] at m2
    have hfam : req.family ≠ "" := by
      rintro h0
      unfold thresholdFor at e1
      rw [if_pos h0] at e1
      cases e1
    unfold thresholdFor at e1
    rw [if_neg hfam] at e1
    refine ⟨ray, hray, req, hq, f, ?_, m2.2, ⟨hk, ?_, m2.1, hfam, thr, e1, e2⟩, (List.getElem?_eq_some_iff.mp g1).1, ?_⟩
    · rw [excitedLine_eq e3]
      exact SMap.find?_of_mem hsort m1
    · have := hact.1
      by_contra hh
      push Not at hh
      exact this ⟨hh.1, fun e => hh.2 e.symm⟩
    · have := hact.2.1
      unfold fracOf at this
      unfold elementFraction
      rw [sampleComposition_eq g1 g2]
      exact this
  · rintro ⟨ray, hray, req, hq, f, h4, h5, ⟨hk, hlay, hin, hfam, thr, e1, e2⟩, hi, hfr⟩
    obtain ⟨mm, q, g1, g2, -, -, g4⟩ := layers_get (srt := srt) h1 h2 i _ (List.getElem?_eq_getElem hi)
    unfold excitedLine at h4
    split at h4
    · rename_i fs hfs
      have hsel : (t, f) ∈ selected req.family fs := by
        unfold selected
        rw [List.mem_filter]
        refine ⟨SMap.mem_of_find? h4, ?_⟩
        simp [hin, not_le.mpr h5]
      refine ⟨_, List.mem_map.mpr ⟨ray, hray, rfl⟩, req, hq, thr, fs, ?_, e2, hfs, hk, _, g4, ⟨?_, ?_, List.ne_nil_of_mem hsel⟩,
        List.mem_map.mpr ⟨_, hsel, rfl⟩⟩
      · unfold thresholdFor
        rw [if_neg hfam]
        exact e1
      · rintro ⟨a, b⟩
        rcases hlay with hlay | hlay
        · omega
        · exact b hlay.symm
      · unfold fracOf
        unfold elementFraction at hfr
        rw [sampleComposition_eq (List.getElem?_eq_getElem hi) g1] at hfr
        exact hfr
    · cases h4

/-- **C73** The efficiency returned with a line is the product of the transmissions of the layers above at the outgoing angle, of
the attenuators, of the user tables, of the geometric efficiency of the layer (1 if it was not asked for), and of the absorption
in the detector (1 without detector). -/
theorem C73_efficiency (hL : SoundLibrary pf fuel L) (reqs : List Request) (hp : ∀ q ∈ reqs, ' ' ∉ q.element.toList)
    (b : Beam ℝ) (r : Result ℝ) (h : fluorescence pf fuel L srt c o g b (reqs.map .ok) = .ok r) (k : String) (i : Nat)
    (t : Str) (ht : ' ' ∉ t) (l : Leaf ℝ) (hl : leaf? r k i t = some l) :
    ∃ (T : Nat → ℝ) (A : List ℝ) (q d : ℝ),
      (∀ j < i, ∃ lj, c.sample[j]? = some lj ∧
        layerTransmission pf fuel L c lj l.energy c.alphaOut (sampleComposition pf fuel L c j) = .ok (T j)) ∧
      List.Forall₂ (fun a v => layerTransmission pf fuel L c a l.energy 90 [] = .ok v) c.attenuators A ∧
      (if g then Xrf.getGeometricEfficiency c (i : Int) else .ok 1) = .ok q ∧
      (if c.detector.layer.hasMaterial ∨ c.detector.layer.materialName.length > 0 then
        detectorIntrinsic pf fuel L c.detector.layer l.energy else .ok 1) = .ok d ∧
      l.efficiency = ((List.range i).map T).prod * A.prod *
        (c.userAttenuators.map (fun a => a.getTransmission l.energy)).prod * q * d := by
  obtain ⟨comps, geoms, h1, h2, h3⟩ := fluorescence_ok h
  obtain ⟨hcan, -⟩ := calculate_amount (env_consistent hL) (env_regular hL) o reqs hp _ r h3
  obtain ⟨-, ⟨l', hl', heff⟩, -⟩ := hcan k i t l ht hl
  obtain ⟨l1, q, g1, g2, g3, g4⟩ := layers_get_inv (srt := srt) h1 h2 i l' hl'
  have hq : l'.geometric = q := by rw [g4]
  rw [hq] at heff
  unfold efficiency at heff
  obtain ⟨d1, e1, heff⟩ := Outcome.bind_eq_ok.mp heff
  obtain ⟨d2, e2, heff⟩ := Outcome.bind_eq_ok.mp heff
  obtain ⟨T, t1, t2⟩ := upperLoop_ok _ _ _ _ _ e1
  obtain ⟨A, a1, a2⟩ := attenuatorLoop_ok _ _ _ _ e2
  have hT : ∀ j < i, ∃ lj, c.sample[j]? = some lj ∧
      layerTransmission pf fuel L c lj l.energy c.alphaOut (sampleComposition pf fuel L c j) = .ok (T j) := by
    intro j hj
    have := t1 j hj
    change (do let l' ← vget c.sample j; let m ← vget comps j; layerTransmission pf fuel L c l' l.energy c.alphaOut m) = _ at this
    obtain ⟨lj, s1, this⟩ := Outcome.bind_eq_ok.mp this
    obtain ⟨m, s2, this⟩ := Outcome.bind_eq_ok.mp this
    rw [vget_ok] at s1 s2
    obtain ⟨m', s3, s4⟩ := (compositions_get _ _ h1).2 j lj s1
    rw [s2] at s3
    cases s3
    refine ⟨lj, s1, ?_⟩
    rw [sampleComposition_eq s1 s4]
    exact this
  have hA : List.Forall₂ (fun a v => layerTransmission pf fuel L c a l.energy 90 [] = .ok v) c.attenuators A := by
    change List.Forall₂ _ (c.attenuators.map (fun l e => layerTransmission pf fuel L c l e 90 [])) A at a1
    rw [List.forall₂_map_left_iff] at a1
    exact a1
  have htab : ∀ d : ℝ, (envOf pf fuel L srt c comps geoms).tables.foldl (fun d t => d * t l.energy) d =
      d * (c.userAttenuators.map (fun a => a.getTransmission l.energy)).prod := by
    intro d
    rw [tables_foldl]
    show d * ((c.userAttenuators.map (fun t e => t.getTransmission e)).map (fun t => t l.energy)).prod = _
    rw [List.map_map]
    rfl
  simp only [htab] at heff
  have hdet : (envOf pf fuel L srt c comps geoms).hasDetector =
    (c.detector.layer.hasMaterial || decide (c.detector.layer.materialName.length > 0)) := rfl
  by_cases hd : c.detector.layer.hasMaterial ∨ c.detector.layer.materialName.length > 0
  · have : (envOf pf fuel L srt c comps geoms).hasDetector = true := by
      rw [hdet]
      rcases hd with hd | hd <;> simp [hd]
    rw [if_pos this] at heff
    obtain ⟨v, v1, heff⟩ := Outcome.bind_eq_ok.mp heff
    obtain ⟨-, -, heff⟩ := Outcome.bind_eq_ok.mp heff
    simp only [Outcome.pure_eq, Outcome.ok.injEq] at heff
    refine ⟨T, A, q, v, hT, hA, g3, ?_, ?_⟩
    · rw [if_pos hd]; exact v1
    · rw [← heff, a2, t2, one_mul]
  · have : ¬ (envOf pf fuel L srt c comps geoms).hasDetector = true := by
      rw [hdet]
      rw [not_or] at hd
      simp only [Bool.or_eq_true, decide_eq_true_eq]
      exact fun hh => hh.elim hd.1 hd.2
    rw [if_neg this] at heff
    simp only [Outcome.pure_eq, Outcome.ok.injEq] at heff
    refine ⟨T, A, q, 1, hT, hA, g3, by rw [if_neg hd], ?_⟩
    rw [← heff, a2, t2, one_mul, mul_one]

end api

end Multilayer
end Fisx
