import Verif.MultilayerPrimary

/-!
# C84: secondary excitation of `XRF::getMultilayerFluorescence`

Closed formula for the secondary excitation, in total and by source, in terms of the configuration and the library only.
The integrals of de Boer are those of `Verif.MathFn` (property C60).
-/

set_option linter.unusedSectionVars false

namespace Fisx
namespace Multilayer

open Xrf (Request)

/-! ## Specification -/

section spec

variable {R : Type} (pf : String → Outcome (SMap String ℝ)) (fuel : Nat) (L : Library ℝ)
  (srt : List (String × ℝ) → List (String × ℝ)) (c : Config ℝ R)

/-- Coherent mass attenuation coefficient of layer `i` of the sample. -/
noncomputable def sampleCoherent (i : Nat) (e : ℝ) : ℝ :=
  match c.sample[i]? with
  | none => 0
  | some l => valueOr0 (do let m ← layerMu pf fuel L c l e (sampleComposition pf fuel L c i); return m.coherent)

/-- The peak families of layer `j` of the sample (`getLayerPeakFamilies`, property C69). -/
noncomputable def sampleFamilies (j : Nat) (e : ℝ) : List (String × ℝ) :=
  match c.sample[j]? with
  | none => []
  | some l =>
    match layerFamilies pf fuel L srt c l e (sampleComposition pf fuel L c j) with
    | .ok f => f
    | _ => []

/-- The lines of an element excited by photons of energy `e`, per photon. -/
noncomputable def excitedLines (el : String) (e : ℝ) : SMap Str (Factor ℝ) :=
  match (do let x ← L.getElement el; x.data.getFactors e 1) with
  | .ok fs => fs
  | _ => []

/-- The element of the family `Fe K`. -/
def familyElement (fam : String) : Str := fam.toList.takeWhile (fun ch => ch ≠ ' ')

/-- The shell of the family `Fe K`. -/
def familyShell (fam : String) : Str :=
  if ' ' ∈ fam.toList then (fam.toList.dropWhile (fun ch => ch ≠ ' ')).drop 1 else fam.toList

/-- Is this line of an element, excited by the beam in a layer with the mass fraction `frac`, taken as a source? -/
def IsSource (o : Options ℝ) (shell : Str) (frac : ℝ) (p : Str × Factor ℝ) : Prop :=
  shell <+: p.1 ∧ 0 < p.2.rate * frac ∧ (0 < o.limit → o.limit ≤ p.2.rate)

open Classical in
/-- What can excite other atoms in or from layer `j` because of a ray of energy `ray.1` and weight `ray.2`: name,
energy and strength (per unit of mass thickness, at the top of the layer) of every line the ray excites there and of the
scattered beam. -/
noncomputable def sources (o : Options ℝ) (j : Nat) (ray : ℝ × ℝ) : List (Str × ℝ × ℝ) :=
  ((sampleFamilies pf fuel L srt c j ray.1).flatMap fun fam =>
    ((excitedLines L (String.ofList (familyElement fam.1)) ray.1).filter
      (fun p => decide (IsSource o (familyShell fam.1)
        (((sampleComposition pf fuel L c j).find? (String.ofList (familyElement fam.1))).getD 0) p))).map
      (fun p => (familyElement fam.1 ++ ' ' :: p.1, p.2.energy,
        ray.2 * reaching pf fuel L c j ray.1 *
          (((sampleComposition pf fuel L c j).find? (String.ofList (familyElement fam.1))).getD 0) * p.2.rate))) ++
  [("coherent scattering".toList, ray.1, ray.2 * reaching pf fuel L c j ray.1 * sampleCoherent pf fuel L c j ray.1)]

/-- The name of a contribution: that of the source followed by its layer with at least two digits. -/
def sourceName (name : Str) (j : Nat) : Str :=
  name ++ ' ' :: (if j < 10 then '0' :: (Nat.repr j).toList else (Nat.repr j).toList)

/-- Mass thickness times coefficient of `n` layers of the sample from layer `b` on. -/
noncomputable def opticalDepth (b n : Nat) (e : ℝ) : ℝ :=
  ((List.range' b n).map (fun q => massThicknessOf c q * sampleMu pf fuel L c q e)).sum

/-- The coefficient along the incoming path, changed by 10 ppm when it is the coefficient of the source. -/
noncomputable def nudged (a m : ℝ) : ℝ := if a = m then a / (99999 / 100000) else a

/-- The geometry of the excitation of a line (coefficient `muT` in its layer `i`) by a source of energy `s` in layer `j`, for a
beam of energy `e`: de Boer's integrals. -/
noncomputable def secondaryGeometry (i j : Nat) (e s muT : ℝ) : ℝ :=
  if i = j then
    let a := sampleMu pf fuel L c i e / sinIn c
    let m := sampleMu pf fuel L c i s
    match c.sample[i]? with
    | none => 0
    | some l => valueOr0 (MathFn.deBoerL0 a (muT / sinOut c) m l.density l.thickness) +
        valueOr0 (MathFn.deBoerL0 (muT / sinOut c) (nudged a m) m l.density l.thickness)
  else
    let a := sampleMu pf fuel L c j e / sinIn c
    let m := sampleMu pf fuel L c j s
    if i < j then
      let g := Real.exp (-(muT * massThicknessOf c i / sinOut c))
      if g < 1 / 1000 then 0
      else g * valueOr0 (MathFn.deBoerX (if -a = m then a / (99999 / 100000) else a) (muT / sinOut c) (massThicknessOf c i)
        (massThicknessOf c j) (sampleMu pf fuel L c i s) m (opticalDepth pf fuel L c (i + 1) (j - (i + 1)) s))
    else
      Real.exp (-(a * massThicknessOf c j)) * valueOr0 (MathFn.deBoerX (-nudged a m) (-(muT / sinOut c)) (massThicknessOf c i)
        (massThicknessOf c j) (sampleMu pf fuel L c i s) m (opticalDepth pf fuel L c (j + 1) (i - (j + 1)) s))

/-- Secondary excitation of the line `t` (energy `eT`) of an element in layer `i` by one source in layer `j`. Sources below
the threshold do not excite it; those of other layers are left out when the beam reaching their layer is less than 1e-4
of the one reaching layer `i`, and for rates below 1e-30. -/
noncomputable def contribution (o : Options ℝ) (el : String) (thr : ℝ) (i j : Nat) (t : Str) (eT : ℝ) (e : ℝ)
    (s : Str × ℝ × ℝ) : ℝ :=
  if s.2.1 < thr then 0
  else match (excitedLines L el s.2.1).find? t with
    | none => 0
    | some f =>
      if i ≠ j ∧ (reaching pf fuel L c j e / reaching pf fuel L c i e < 1 / 10000 ∨ f.rate < 1 / 10 ^ 30) then 0
      else s.2.2 * f.rate * (elementFraction pf fuel L c o i el / (2 * sinIn c)) *
        secondaryGeometry pf fuel L c i j e s.2.1 (sampleMu pf fuel L c i eT)

open Classical in
/-- Secondary excitation of a line produced by one ray because of one request, by the sources with the names `P`. -/
noncomputable def secondaryTerm (o : Options ℝ) (k : String) (i : Nat) (t : Str) (P : Str → Prop) (ray : ℝ × ℝ)
    (req : Request) : ℝ :=
  match excitedLine L req.element ray.1 ray.2 t with
  | none => 0
  | some f =>
    if Asked L req k i t ray.1 ∧ 0 < f.factor ∧ i < c.sample.length ∧ 0 < o.secondary then
      ((List.range c.sample.length).map (fun j => ((sources pf fuel L srt c o j ray).map (fun s =>
        if P (sourceName s.1 j) then contribution pf fuel L c o req.element
          (valueOr0 (Xrf.getEnergyThreshold L req.element (String.ofList ((actualFamily req.family).toList.take 1))))
          i j t f.energy ray.1 s else 0)).sum)).sum
    else 0

end spec

/-! ## Lists of contributions -/

section lists

variable {K : Type} [Field K] [LinearOrder K] [IsStrictOrderedRing K]

/-- The sum of the contributions whose names satisfy `P`. -/
def sumOf (P : Str → Prop) [DecidablePred P] (cs : List (Contribution K)) : K :=
  ((cs.filter (fun c => decide (P c.2.1))).map (fun c => c.2.2)).sum

theorem sumOf_append (P : Str → Prop) [DecidablePred P] (a b : List (Contribution K)) :
    sumOf P (a ++ b) = sumOf P a + sumOf P b := by
  simp [sumOf]

theorem lineLoop_sum (P : Str → Prop) [DecidablePred P] {F : Str → Tmp K → Outcome (Option K)} {name t : Str} {p : Tmp K}
    {cs : List (Contribution K)} (h : lineLoop F name [(t, p)] = .ok cs) :
    ∃ v, F t p = .ok v ∧ sumOf P cs = if P name then v.getD 0 else 0 := by
  unfold lineLoop at h
  obtain ⟨v, h1, h⟩ := Outcome.bind_eq_ok.mp h
  obtain ⟨r, h2, h⟩ := Outcome.bind_eq_ok.mp h
  simp only [lineLoop, Outcome.ok.injEq] at h2
  subst h2
  refine ⟨v, h1, ?_⟩
  cases v with
  | none =>
    simp only [Outcome.pure_eq, Outcome.ok.injEq] at h
    subst h
    simp [sumOf]
  | some v =>
    simp only [Outcome.pure_eq, Outcome.ok.injEq] at h
    subst h
    unfold sumOf
    by_cases hP : P name <;> simp [hP]

/-- The loop over the emissions: `g` is what each of them contributes. -/
theorem emissionLoop_sum (env : Env K) (P : Str → Prop) [DecidablePred P] (el : String) (thr : K) (j : Nat) (t : Str)
    (p : Tmp K) (F : Emission K → SMap Str (Factor K) → Str → Tmp K → Outcome (Option K)) (g : Str × K × K → K) :
    ∀ (raw : List (Str × K × K)) (ems : List (Emission K)) (cs : List (Contribution K)),
    List.Forall₂ (EmOf env j) raw ems → emissionLoop env el thr j [(t, p)] F ems = .ok cs →
    (∀ s ∈ raw, s.2.1 < thr → g s = 0) →
    (∀ s em fs v, EmOf env j s em → ¬ s.2.1 < thr → env.excite el s.2.1 1 = .ok fs → F em fs t p = .ok v → g s = v.getD 0) →
    sumOf P cs = (raw.map (fun s => if P (s.1 ++ ' ' :: twoDigits j) then g s else 0)).sum := by
  intro raw
  induction raw with
  | nil =>
    intro ems cs h1 h2 _ _
    cases h1
    simp only [emissionLoop, Outcome.ok.injEq] at h2
    subst h2
    simp [sumOf]
  | cons s raw ih =>
    intro ems cs h1 h2 h3 h4
    cases h1 with
    | cons e1 e2 =>
      rename_i em ems
      have h3' : ∀ s ∈ raw, s.2.1 < thr → g s = 0 := fun s hs => h3 s (by simp [hs])
      obtain ⟨n1, n2, n3, n4⟩ := id e1
      unfold emissionLoop at h2
      rw [List.map_cons, List.sum_cons]
      split_ifs at h2 with hthr
      · rw [ih ems cs e2 h2 h3' h4, h3 s (by simp) (by rw [← n2]; exact hthr)]
        simp
      · obtain ⟨fs, a1, h2⟩ := Outcome.bind_eq_ok.mp h2
        obtain ⟨a, a2, h2⟩ := Outcome.bind_eq_ok.mp h2
        obtain ⟨r, a3, h2⟩ := Outcome.bind_eq_ok.mp h2
        simp only [Outcome.pure_eq, Outcome.ok.injEq] at h2
        subst h2
        rw [sumOf_append, ih ems r e2 a3 h3' h4]
        obtain ⟨v, b1, b2⟩ := lineLoop_sum P a2
        rw [b2, h4 s em fs v e1 (by rw [← n2]; exact hthr) (by rw [← n2]; exact a1) b1]
        unfold contribName
        rw [n1]

theorem familyLines_sum (o : Options K) (m thr frac w lw : K) (hm : m ≤ thr) (ele family : Str) (g : Str × K × K → K)
    (hg : ∀ s, s.2.1 < thr → g s = 0) : ∀ fs : List (Str × Factor K),
    ((familyLines o m frac w lw ele family fs).map g).sum =
      (((fs.filter (fun p => decide (family <+: p.1 ∧ 0 < p.2.rate * frac ∧ (0 < o.limit → o.limit ≤ p.2.rate)))).map
        (fun p => (ele ++ ' ' :: p.1, p.2.energy, p.2.rate * frac * w * lw))).map g).sum
  | [] => rfl
  | (t, f) :: rest => by
    have ih := familyLines_sum o m thr frac w lw hm ele family g hg rest
    have hpre : Shell.startsWith t family = false ↔ ¬ family <+: t := by
      unfold Shell.startsWith
      rw [decide_eq_false_iff_not, List.prefix_iff_eq_take, eq_comm]
    unfold familyLines
    rw [List.filter_cons]
    by_cases h1 : Shell.startsWith t family = false
    · rw [if_pos h1, if_neg, ih]
      simp only [decide_eq_true_eq]
      exact fun h => hpre.1 h1 h.1
    rw [if_neg h1]
    by_cases h2 : f.rate * frac ≤ 0
    · rw [if_pos h2, if_neg, ih]
      simp only [decide_eq_true_eq]
      exact fun h => absurd h.2.1 (not_lt.2 h2)
    rw [if_neg h2]
    by_cases h3 : o.limit > 0 ∧ f.rate < o.limit
    · rw [if_pos h3, if_neg, ih]
      simp only [decide_eq_true_eq]
      exact fun h => absurd (h.2.2 h3.1) (not_le.2 h3.2)
    have hin : decide (family <+: (t, f).1 ∧ 0 < (t, f).2.rate * frac ∧ (0 < o.limit → o.limit ≤ (t, f).2.rate)) = true := by
      rw [decide_eq_true_eq]
      exact ⟨by_contra fun h => h1 (hpre.2 h), not_le.1 h2, fun h => not_lt.1 fun h' => h3 ⟨h, h'⟩⟩
    rw [if_neg h3, if_pos hin, List.map_cons, List.map_cons, List.sum_cons]
    by_cases h4 : f.energy < m
    · rw [if_pos h4, ih, hg _ (lt_of_lt_of_le h4 hm), zero_add]
    · rw [if_neg h4, List.map_cons, List.sum_cons, ih]

theorem betweenLoop_sum {env : Env K} {rd : RayData K} (hk : CacheOk env rd) (M : Nat → K → K) (D : Nat → K)
    (hM : ∀ i e m, env.mu i e = .ok m → M i e = m)
    (hD : ∀ i l, env.layers[i]? = some l → D i = l.density * l.thickness) (e : K) : ∀ (n b : Nat) (acc v : K),
    betweenLoop env rd e b n acc = .ok v → v = acc + ((List.range' b n).map (fun q => D q * M q e)).sum
  | 0, b, acc, v, h => by
    simp only [betweenLoop, Outcome.ok.injEq] at h
    subst h
    simp
  | n + 1, b, acc, v, h => by
    unfold betweenLoop at h
    obtain ⟨l, h1, h⟩ := Outcome.bind_eq_ok.mp h
    obtain ⟨m, h2, h⟩ := Outcome.bind_eq_ok.mp h
    rw [betweenLoop_sum hk M D hM hD e n (b + 1) _ v h, List.range'_succ, List.map_cons, List.sum_cons,
      hM _ _ _ (hk _ _ _ h2), hD b l (vget_ok.1 h1)]
    ring

end lists

theorem familyParts_eq (fam : String) : familyParts fam.toList = (familyElement fam, familyShell fam) := by
  unfold familyParts familyElement familyShell
  by_cases h : ' ' ∈ fam.toList
  · rw [if_pos h]
    have hne : List.dropWhile (fun ch => decide (ch ≠ ' ')) fam.toList ≠ [] := by
      intro h0
      rw [List.dropWhile_eq_nil_iff] at h0
      have := h0 _ h
      simp at this
    cases hd : List.dropWhile (fun ch => decide (ch ≠ ' ')) fam.toList with
    | nil => exact absurd hd hne
    | cons a l => simp
  · rw [if_neg h]
    have h0 : List.dropWhile (fun ch => decide (ch ≠ ' ')) fam.toList = [] := by
      rw [List.dropWhile_eq_nil_iff]
      intro x hx
      simp only [decide_eq_true_eq]
      rintro rfl
      exact h hx
    have h1 : List.takeWhile (fun ch => decide (ch ≠ ' ')) fam.toList = fam.toList := by
      have := List.takeWhile_append_dropWhile (p := fun ch => decide (ch ≠ ' ')) (l := fam.toList)
      rw [h0, List.append_nil] at this
      exact this
    simp only [h0, h1]

theorem twoDigits_eq (name : Str) (j : Nat) : name ++ ' ' :: twoDigits j = sourceName name j := by
  unfold twoDigits sourceName
  have : (Nat.repr j).toList.length < 2 ↔ j < 10 := by
    rw [show (2 : Nat) = 1 + 1 from rfl, Nat.lt_succ_iff, String.length_toList, Nat.length_repr_le_iff (by norm_num)]
  simp only [this]

section lemmas

variable {R : Type} {pf : String → Outcome (SMap String ℝ)} {fuel : Nat} {L : Library ℝ}
  {srt : List (String × ℝ) → List (String × ℝ)} {c : Config ℝ R} {comps : List (SMap String ℝ)} {geoms : List ℝ}
  {g : Bool}

theorem excitedLines_eq {el : String} {e : ℝ} {fs : SMap Str (Factor ℝ)}
    (h : (envOf pf fuel L srt c comps geoms).excite el e 1 = .ok fs) : excitedLines L el e = fs := by
  change (do let x ← L.getElement el; x.data.getFactors e 1) = _ at h
  unfold excitedLines
  rw [h]

theorem massThickness_eq (hc : compositions pf fuel L c c.sample = .ok comps) (hg : geometricLoop c g 0 c.sample = .ok geoms)
    (i : Nat) (l : LayerData ℝ) (hl : (envOf pf fuel L srt c comps geoms).layers[i]? = some l) :
    massThicknessOf c i = l.density * l.thickness := by
  obtain ⟨l1, q, h1, h2, h3, h4⟩ := layers_get_inv (srt := srt) hc hg i l hl
  unfold massThicknessOf
  rw [h1, h4]

theorem incident_snd (hc : compositions pf fuel L c c.sample = .ok comps) {e : ℝ} {inc : List (ℝ × ℝ)}
    (h : incident (envOf pf fuel L srt c comps geoms) e 0 (envOf pf fuel L srt c comps geoms).layers 0 = .ok inc)
    {i : Nat} {p : ℝ × ℝ} (hi : vget inc i = .ok p) : p.2 = sampleMu pf fuel L c i e := by
  rw [vget_ok] at hi
  have := incident_get _ e (sampleMu pf fuel L c) (fun i e m hm => env_mu_eq hc hm) _ 0 0 inc h i _ hi
  rw [this]
  simp

/-- The lines of the families of a layer. -/
theorem familiesLoop_sum (o : Options ℝ) (m thr e w lw : ℝ) (hm : m ≤ thr) (comp : SMap String ℝ) (G : Str × ℝ × ℝ → ℝ)
    (hG : ∀ s, s.2.1 < thr → G s = 0) : ∀ (fams : List (String × ℝ)) (raw : List (Str × ℝ × ℝ)),
    familiesLoop (envOf pf fuel L srt c comps geoms) o m e w lw comp fams = .ok raw →
    (raw.map G).sum = ((fams.flatMap fun fam =>
      ((excitedLines L (String.ofList (familyElement fam.1)) e).filter
        (fun p => decide (familyShell fam.1 <+: p.1 ∧
          0 < p.2.rate * ((comp.find? (String.ofList (familyElement fam.1))).getD 0) ∧ (0 < o.limit → o.limit ≤ p.2.rate)))).map
        (fun p => (familyElement fam.1 ++ ' ' :: p.1, p.2.energy,
          p.2.rate * ((comp.find? (String.ofList (familyElement fam.1))).getD 0) * w * lw))).map G).sum
  | [], raw, h => by
    simp only [familiesLoop, Outcome.ok.injEq] at h
    subst h
    simp
  | fam :: fams, raw, h => by
    unfold familiesLoop at h
    dsimp only at h
    rw [familyParts_eq] at h
    obtain ⟨fs, h1, h⟩ := Outcome.bind_eq_ok.mp h
    obtain ⟨r, h2, h⟩ := Outcome.bind_eq_ok.mp h
    simp only [Outcome.pure_eq, Outcome.ok.injEq] at h
    subst h
    rw [List.map_append, List.sum_append, familiesLoop_sum o m thr e w lw hm comp G hG fams r h2,
      familyLines_sum o m thr _ w lw hm _ _ G hG, List.flatMap_cons, List.map_append, List.sum_append,
      excitedLines_eq h1]

open Classical in
/-- All the sources of a layer. -/
theorem layerEmissions_sum (hL : SoundLibrary pf fuel L) (hc : compositions pf fuel L c c.sample = .ok comps)
    (hg : geometricLoop c g 0 c.sample = .ok geoms) (o : Options ℝ) (m thr e w : ℝ) (hm : m ≤ thr) (j : Nat)
    (l : LayerData ℝ) (hl : (envOf pf fuel L srt c comps geoms).layers[j]? = some l) (lw : ℝ)
    (hlw : lw = reaching pf fuel L c j e) (ems : List (Emission ℝ))
    (h : layerEmissions (envOf pf fuel L srt c comps geoms) o m e w j l lw = .ok ems) :
    ∃ raw, List.Forall₂ (EmOf (envOf pf fuel L srt c comps geoms) j) raw ems ∧
      ∀ G : Str × ℝ × ℝ → ℝ, (∀ s, s.2.1 < thr → G s = 0) →
        (raw.map G).sum = ((sources pf fuel L srt c o j (e, w)).map G).sum := by
  obtain ⟨l1, q, h1, h2, h3, h4⟩ := layers_get_inv (srt := srt) hc hg j l hl
  have hcomp := sampleComposition_eq h1 h2
  obtain ⟨fams, raw, last, f1, f2, f3, f4⟩ := layerEmissions_spec (env_consistent hL) o m e w j l lw ems h
  refine ⟨_, f4, fun G hG => ?_⟩
  have hcj : comps[j]? = some l.composition := by
    obtain ⟨-, a2⟩ := compositions_get _ _ hc
    obtain ⟨q', b1, b2⟩ := a2 j l1 h1
    rw [h2] at b2
    cases b2
    exact b1
  have hfam : sampleFamilies pf fuel L srt c j e = fams := by
    change (do let l ← vget c.sample j; let m ← vget comps j; layerFamilies pf fuel L srt c l e m) = _ at f1
    rw [vget_ok.2 h1, Outcome.ok_bind, vget_ok.2 hcj, Outcome.ok_bind] at f1
    unfold sampleFamilies
    rw [h1]
    simp only [hcomp, f1]
  have hcoh : sampleCoherent pf fuel L c j e = last.coherent := by
    change (do let l ← vget c.sample j; let m ← vget comps j; layerMu pf fuel L c l e m) = _ at f3
    rw [vget_ok.2 h1, Outcome.ok_bind, vget_ok.2 hcj, Outcome.ok_bind] at f3
    unfold sampleCoherent
    rw [h1]
    simp only [hcomp, f3]
    rfl
  rw [List.map_append, List.sum_append, familiesLoop_sum o m thr e w lw hm _ G hG fams raw f2]
  unfold sources
  rw [List.map_append, List.sum_append]
  dsimp only
  rw [hfam, hcomp, hcoh, hlw]
  have key : ∀ A B : List (Str × ℝ × ℝ), A = B → ∀ x : ℝ, (A.map G).sum + x = (B.map G).sum + x := by
    rintro A B rfl x
    rfl
  refine key _ _ (List.flatMap_congr fun fam _ => ?_) _
  have hfil : ∀ fs : SMap Str (Factor ℝ), List.filter (fun p => decide (familyShell fam.1 <+: p.1 ∧
      0 < p.2.rate * ((l.composition.find? (String.ofList (familyElement fam.1))).getD 0) ∧
        (0 < o.limit → o.limit ≤ p.2.rate))) fs =
      List.filter (fun p => decide (IsSource o (familyShell fam.1)
        ((l.composition.find? (String.ofList (familyElement fam.1))).getD 0) p)) fs := by
    intro fs
    refine List.filter_congr fun p _ => ?_
    rw [decide_eq_decide]
    exact Iff.rfl
  rw [hfil]
  refine List.map_congr_left fun p _ => ?_
  rw [Prod.mk.injEq, Prod.mk.injEq]
  refine ⟨rfl, rfl, ?_⟩
  ring

theorem emissionsLoop_get (env : Env ℝ) (o : Options ℝ) (m e w : ℝ) : ∀ (ls : List (LayerData ℝ)) (ps : List (ℝ × ℝ)) (i : Nat)
    (out : List (List (Emission ℝ))), emissionsLoop env o m e w i ls ps = .ok out → ∀ (n : Nat) ems, out[n]? = some ems →
    ∃ l p, ls[n]? = some l ∧ ps[n]? = some p ∧ layerEmissions env o m e w (i + n) l p.1 = .ok ems
  | [], ps, i, out, h, n, ems, hn => by
    simp only [emissionsLoop, Outcome.ok.injEq] at h
    subst h
    simp at hn
  | l :: ls, [], i, out, h, n, ems, hn => by
    simp only [emissionsLoop, Outcome.ok.injEq] at h
    subst h
    simp at hn
  | l :: ls, p :: ps, i, out, h, n, ems, hn => by
    rw [emissionsLoop] at h
    obtain ⟨em, h1, h⟩ := Outcome.bind_eq_ok.mp h
    obtain ⟨r, h2, h⟩ := Outcome.bind_eq_ok.mp h
    simp only [Outcome.pure_eq, Outcome.ok.injEq] at h
    subst h
    cases n with
    | zero =>
      simp only [List.getElem?_cons_zero, Option.some.injEq] at hn
      subst hn
      exact ⟨l, p, rfl, rfl, h1⟩
    | succ n =>
      obtain ⟨l', p', a1, a2, a3⟩ := emissionsLoop_get env o m e w ls ps (i + 1) r h2 n ems (by simpa using hn)
      exact ⟨l', p', by simpa using a1, by simpa using a2, by rwa [show i + (n + 1) = i + 1 + n by omega]⟩

/-! ### One source -/

theorem muTotal_sum {muIn a b : ℝ} : muIn / (a * b) = muIn / b / a := by
  rw [div_div, mul_comm]

theorem intra_contribution (hc : compositions pf fuel L c c.sample = .ok comps)
    (hg : geometricLoop c g 0 c.sample = .ok geoms) (o : Options ℝ) (el : String) (thr : ℝ) (i : Nat) (l : LayerData ℝ)
    (hl : (envOf pf fuel L srt c comps geoms).layers[i]? = some l) (e muIn frac eT : ℝ)
    (hmu : muIn = sampleMu pf fuel L c i e) (hfr : frac = elementFraction pf fuel L c o i el) (t : Str) (p : Tmp ℝ)
    (hp : p.mu = sampleMu pf fuel L c i eT) (s : Str × ℝ × ℝ) (em : Emission ℝ) (fs : SMap Str (Factor ℝ)) (v : Option ℝ)
    (hem : EmOf (envOf pf fuel L srt c comps geoms) i s em) (hthr : ¬ s.2.1 < thr)
    (hfs : (envOf pf fuel L srt c comps geoms).excite el s.2.1 1 = .ok fs)
    (h : intra (envOf pf fuel L srt c comps geoms) l muIn frac em fs t p = .ok v) :
    contribution pf fuel L c o el thr i i t eT e s = v.getD 0 := by
  obtain ⟨n1, n2, n3, n4⟩ := hem
  have hm := env_mu_eq hc n4
  obtain ⟨l1, q, h1, h2, h3, h4⟩ := layers_get_inv (srt := srt) hc hg i l hl
  have hd : l.density = l1.density := by rw [h4]
  have ht : l.thickness = l1.thickness := by rw [h4]
  unfold contribution
  rw [if_neg hthr, excitedLines_eq hfs]
  unfold intra at h
  cases hf : SMap.find? fs t with
  | none =>
    rw [hf] at h
    simp only [Outcome.ok.injEq] at h
    subst h
    rfl
  | some f =>
    rw [hf] at h
    dsimp only at h ⊢
    rw [if_neg (by simp)]
    obtain ⟨a, a1, h⟩ := Outcome.bind_eq_ok.mp h
    obtain ⟨b, b1, h⟩ := Outcome.bind_eq_ok.mp h
    simp only [Outcome.pure_eq, Outcome.ok.injEq] at h
    subst h
    change MathFn.deBoerL0 (muIn / sinIn c) (p.mu / sinOut c) em.mu l.density l.thickness = .ok a at a1
    change (if muIn / sinIn c = em.mu then
      MathFn.deBoerL0 (p.mu / sinOut c) (muIn / (99999 / 100000 * sinIn c)) em.mu l.density l.thickness
      else MathFn.deBoerL0 (p.mu / sinOut c) (muIn / sinIn c) em.mu l.density l.thickness) = .ok b at b1
    have b2 : MathFn.deBoerL0 (p.mu / sinOut c) (nudged (muIn / sinIn c) em.mu) em.mu l.density l.thickness = .ok b := by
      unfold nudged
      by_cases hh : muIn / sinIn c = em.mu
      · rw [if_pos hh] at b1 ⊢
        rw [← b1, muTotal_sum]
      · rw [if_neg hh] at b1 ⊢
        exact b1
    rw [hmu, hp, ← hm, hd, ht] at a1 b2
    unfold secondaryGeometry
    rw [if_pos rfl, h1]
    dsimp only
    rw [a1, b2, ← hfr, n3]
    show _ = (a + b) * (frac * (1 / 2 / sinIn c)) * (f.rate * s.2.2)
    unfold valueOr0
    dsimp only
    rw [show frac / (2 * sinIn c) = frac * (1 / 2 / sinIn c) by rw [div_div, mul_one_div]]
    ring

theorem inter_contribution (hc : compositions pf fuel L c c.sample = .ok comps)
    (hg : geometricLoop c g 0 c.sample = .ok geoms) (o : Options ℝ) (el : String) (thr : ℝ) (i j : Nat) (hij : i ≠ j)
    (l l2 : LayerData ℝ) (rd : RayData ℝ) (hk : CacheOk (envOf pf fuel L srt c comps geoms) rd)
    (hl : (envOf pf fuel L srt c comps geoms).layers[i]? = some l)
    (hl2 : (envOf pf fuel L srt c comps geoms).layers[j]? = some l2) (e mu2 frac eT : ℝ)
    (hmu : mu2 = sampleMu pf fuel L c j e) (hfr : frac = elementFraction pf fuel L c o i el) (t : Str) (p : Tmp ℝ)
    (hre : ¬ reaching pf fuel L c j e / reaching pf fuel L c i e < 1 / 10000)
    (hp : p.mu = sampleMu pf fuel L c i eT) (s : Str × ℝ × ℝ) (em : Emission ℝ) (fs : SMap Str (Factor ℝ)) (v : Option ℝ)
    (hem : EmOf (envOf pf fuel L srt c comps geoms) j s em) (hthr : ¬ s.2.1 < thr)
    (hfs : (envOf pf fuel L srt c comps geoms).excite el s.2.1 1 = .ok fs)
    (h : inter (envOf pf fuel L srt c comps geoms) rd i j l l2 mu2 frac em fs t p = .ok v) :
    contribution pf fuel L c o el thr i j t eT e s = v.getD 0 := by
  obtain ⟨n1, n2, n3, n4⟩ := hem
  have hm := env_mu_eq hc n4
  have hd1 := massThickness_eq hc hg i l hl
  have hd2 := massThickness_eq hc hg j l2 hl2
  have hbet : ∀ n b v, betweenLoop (envOf pf fuel L srt c comps geoms) rd em.energy b n 0 = .ok v →
      v = opticalDepth pf fuel L c b n s.2.1 := by
    intro n b v hv
    have := betweenLoop_sum hk (sampleMu pf fuel L c) (massThicknessOf c) (fun i e m hm => env_mu_eq hc hm)
      (fun i l hl => massThickness_eq hc hg i l hl) em.energy n b 0 v hv
    rw [this, zero_add, n2]
    rfl
  unfold contribution
  rw [if_neg hthr, excitedLines_eq hfs]
  unfold inter at h
  cases hf : SMap.find? fs t with
  | none =>
    rw [hf] at h
    simp only [Outcome.ok.injEq] at h
    subst h
    rfl
  | some f =>
    rw [hf] at h
    dsimp only at h ⊢
    by_cases hr : f.rate < 1 / 10 ^ 30
    · rw [if_pos hr] at h
      simp only [Outcome.ok.injEq] at h
      subst h
      rw [if_pos ⟨hij, Or.inr hr⟩]
      rfl
    rw [if_neg hr] at h
    rw [if_neg (fun hh => hh.2.elim hre hr)]
    obtain ⟨m1, a1, h⟩ := Outcome.bind_eq_ok.mp h
    have hm1 := env_mu_eq hc (hk _ _ _ a1)
    rw [n2] at hm1
    unfold secondaryGeometry
    rw [if_neg hij]
    dsimp only
    by_cases hlt : i < j
    · rw [if_pos hlt] at h ⊢
      obtain ⟨mb, a2, h⟩ := Outcome.bind_eq_ok.mp h
      have hmb := hbet _ _ _ a2
      have hG : (envOf pf fuel L srt c comps geoms).exp (-p.mu * l.density * l.thickness /
          (envOf pf fuel L srt c comps geoms).sinOut) =
          Real.exp (-(sampleMu pf fuel L c i eT * massThicknessOf c i / sinOut c)) := by
        show Real.exp (-p.mu * l.density * l.thickness / sinOut c) = _
        rw [hp, hd1]
        congr 1
        ring
      rw [hG] at h
      by_cases hg3 : Real.exp (-(sampleMu pf fuel L c i eT * massThicknessOf c i / sinOut c)) < 1 / 1000
      · rw [if_pos hg3] at h ⊢
        simp only [Outcome.pure_eq, Outcome.ok.injEq] at h
        subst h
        simp
      rw [if_neg hg3] at h ⊢
      obtain ⟨w, a3, h⟩ := Outcome.bind_eq_ok.mp h
      simp only [Outcome.pure_eq, Outcome.ok.injEq] at h
      subst h
      change (if -(mu2 / sinIn c) = em.mu then
            MathFn.deBoerX (mu2 / (99999 / 100000 * sinIn c)) (p.mu / sinOut c) (l.density * l.thickness)
              (l2.density * l2.thickness) m1 em.mu mb
            else MathFn.deBoerX (mu2 / sinIn c) (p.mu / sinOut c) (l.density * l.thickness)
              (l2.density * l2.thickness) m1 em.mu mb) = .ok w at a3
      have a4 : MathFn.deBoerX (if -(mu2 / sinIn c) = em.mu then mu2 / sinIn c / (99999 / 100000) else mu2 / sinIn c)
          (p.mu / sinOut c) (l.density * l.thickness) (l2.density * l2.thickness) m1 em.mu mb = .ok w := by
        by_cases hh : -(mu2 / sinIn c) = em.mu
        · rw [if_pos hh] at a3 ⊢
          rw [← a3, muTotal_sum]
        · rw [if_neg hh] at a3 ⊢
          exact a3
      rw [hmu, hp, ← hm, ← hd1, ← hd2, ← hm1, hmb] at a4
      rw [a4, ← hfr, n3]
      show _ = Real.exp _ * s.2.2 * w * (frac * (1 / 2 / sinIn c)) * f.rate
      unfold valueOr0
      dsimp only
      rw [show frac / (2 * sinIn c) = frac * (1 / 2 / sinIn c) by rw [div_div, mul_one_div]]
      ring
    · rw [if_neg hlt] at h ⊢
      obtain ⟨mb, a2, h⟩ := Outcome.bind_eq_ok.mp h
      have hmb := hbet _ _ _ a2
      have hG : (envOf pf fuel L srt c comps geoms).exp (-mu2 * l2.density * l2.thickness /
          (envOf pf fuel L srt c comps geoms).sinIn) =
          Real.exp (-(sampleMu pf fuel L c j e / sinIn c * massThicknessOf c j)) := by
        show Real.exp (-mu2 * l2.density * l2.thickness / sinIn c) = _
        rw [hmu, hd2]
        congr 1
        ring
      rw [hG] at h
      obtain ⟨w, a3, h⟩ := Outcome.bind_eq_ok.mp h
      simp only [Outcome.pure_eq, Outcome.ok.injEq] at h
      subst h
      change (if mu2 / sinIn c = em.mu then
            MathFn.deBoerX (-mu2 / (99999 / 100000 * sinIn c)) (-p.mu / sinOut c) (l.density * l.thickness)
              (l2.density * l2.thickness) m1 em.mu mb
            else MathFn.deBoerX (-mu2 / sinIn c) (-p.mu / sinOut c) (l.density * l.thickness)
              (l2.density * l2.thickness) m1 em.mu mb) = .ok w at a3
      have a4 : MathFn.deBoerX (-nudged (mu2 / sinIn c) em.mu)
          (-(p.mu / sinOut c)) (l.density * l.thickness) (l2.density * l2.thickness) m1 em.mu mb = .ok w := by
        unfold nudged
        by_cases hh : mu2 / sinIn c = em.mu
        · rw [if_pos hh] at a3 ⊢
          rw [← a3, muTotal_sum, neg_div, neg_div, neg_div]
        · rw [if_neg hh] at a3 ⊢
          rw [← a3, neg_div, neg_div]
      rw [hmu, hp, ← hm, ← hd1, ← hd2, ← hm1, hmb] at a4
      rw [a4, ← hfr, n3]
      show _ = Real.exp _ * s.2.2 * w * (frac * (1 / 2 / sinIn c)) * f.rate
      unfold valueOr0
      dsimp only
      rw [show frac / (2 * sinIn c) = frac * (1 / 2 / sinIn c) by rw [div_div, mul_one_div]]
      ring

/-! ### All the sources -/

open Classical in
theorem secondaryLoop_sum (hL : SoundLibrary pf fuel L) (hc : compositions pf fuel L c c.sample = .ok comps)
    (hg : geometricLoop c g 0 c.sample = .ok geoms) (o : Options ℝ) (ho : 0 < o.secondary) (m e w : ℝ) (rd : RayData ℝ)
    (hrd : rayData (envOf pf fuel L srt c comps geoms) o m e w = .ok rd) (el : String) (thr : ℝ) (hm : m ≤ thr) (i : Nat)
    (l : LayerData ℝ) (hl : (envOf pf fuel L srt c comps geoms).layers[i]? = some l) (muIn lw mu0 frac eT : ℝ)
    (hmu : muIn = sampleMu pf fuel L c i e) (hlw : vget rd.incident i = .ok (lw, mu0))
    (hfr : frac = elementFraction pf fuel L c o i el) (t : Str) (p : Tmp ℝ)
    (hp : p.mu = sampleMu pf fuel L c i eT) (P : Str → Prop) : ∀ (n j : Nat) (cs : List (Contribution ℝ)),
    secondaryLoop (envOf pf fuel L srt c comps geoms) rd el thr i l muIn lw frac [(t, p)] j n = .ok cs →
    sumOf P cs = ((List.range' j n).map (fun j => ((sources pf fuel L srt c o j (e, w)).map (fun s =>
      if P (sourceName s.1 j) then contribution pf fuel L c o el thr i j t eT e s else 0)).sum)).sum
  | 0, j, cs, h => by
    simp only [secondaryLoop, Outcome.ok.injEq] at h
    subst h
    simp [sumOf]
  | n + 1, j, cs, h => by
    unfold secondaryLoop at h
    obtain ⟨ems, e1, h⟩ := Outcome.bind_eq_ok.mp h
    obtain ⟨q, e2, h⟩ := Outcome.bind_eq_ok.mp h
    obtain ⟨l2, e3, h⟩ := Outcome.bind_eq_ok.mp h
    obtain ⟨a, e4, h⟩ := Outcome.bind_eq_ok.mp h
    obtain ⟨r, e5, h⟩ := Outcome.bind_eq_ok.mp h
    simp only [Outcome.pure_eq, Outcome.ok.injEq] at h
    subst h
    rw [sumOf_append, secondaryLoop_sum hL hc hg o ho m e w rd hrd el thr hm i l hl muIn lw mu0 frac eT hmu hlw hfr t p hp P n
      (j + 1) r e5, List.range'_succ, List.map_cons, List.sum_cons]
    congr 1
    obtain ⟨r1, r2, r3, r4, r5⟩ := rayData_parts hrd
    have hcons := env_consistent (srt := srt) (c := c) (comps := comps) (geoms := geoms) hL
    have hk : CacheOk (envOf pf fuel L srt c comps geoms) rd := cacheOk_of hcons _ r5
    rw [if_pos ho] at r4
    obtain ⟨l3, q3, d1, d2, d3⟩ := emissionsLoop_get _ o m e w _ _ 0 _ r4 j ems (vget_ok.1 e1)
    rw [vget_ok.1 e3] at d1
    rw [vget_ok.1 e2] at d2
    cases d1
    cases d2
    rw [zero_add] at d3
    obtain ⟨raw, f1, f2⟩ := layerEmissions_sum hL hc hg o m thr e w hm j l2 (vget_ok.1 e3) q.1
      (reaching_eq hc hg r3 (m := q.2) e2) ems d3
    have hz : ∀ s : Str × ℝ × ℝ, s.2.1 < thr → contribution pf fuel L c o el thr i j t eT e s = 0 := by
      intro s hs
      unfold contribution
      rw [if_pos hs]
    rw [← f2 _ (fun s hs => by simp only [hz s hs, ite_self])]
    simp only [← twoDigits_eq]
    by_cases hij : i = j
    · subst hij
      rw [if_pos rfl] at e4
      refine emissionLoop_sum _ P el thr i t p _ (contribution pf fuel L c o el thr i i t eT e) raw ems a f1 e4
        (fun s _ hs => hz s hs) (fun s em fs v x1 x2 x3 x4 => ?_)
      exact intra_contribution hc hg o el thr i l hl e muIn frac eT hmu hfr t p hp s em fs v x1 x2 x3 x4
    rw [if_neg hij] at e4
    have hq : q.1 / lw = reaching pf fuel L c j e / reaching pf fuel L c i e := by
      rw [reaching_eq hc hg r3 hlw, reaching_eq hc hg r3 (m := q.2) e2]
    rw [hq] at e4
    by_cases hre : reaching pf fuel L c j e / reaching pf fuel L c i e < 1 / 10000
    · rw [if_pos hre] at e4
      simp only [Outcome.ok.injEq] at e4
      subst e4
      have hall : ∀ s : Str × ℝ × ℝ, contribution pf fuel L c o el thr i j t eT e s = 0 := by
        intro s
        unfold contribution
        split
        · rfl
        · split
          · rfl
          · rw [if_pos ⟨hij, Or.inl hre⟩]
      simp only [hall, ite_self]
      simp [sumOf]
    rw [if_neg hre] at e4
    refine emissionLoop_sum _ P el thr j t p _ (contribution pf fuel L c o el thr i j t eT e) raw ems a f1 e4
        (fun s _ hs => hz s hs) (fun s em fs v x1 x2 x3 x4 => ?_)
    exact inter_contribution hc hg o el thr i j hij l l2 rd hk hl (vget_ok.1 e3) e q.2 frac eT (incident_snd hc r3 e2)
      hfr t p hre hp s em fs v x1 x2 x3 x4

/-- The part of the amounts due to the sources with the names `P`. -/
def Part (P : Str → Prop) (y : Amount ℝ) (v : ℝ) : Prop :=
  (P = (fun _ => True) ∧ v = y.2.1) ∨ ∃ n, P = (fun x => x = n) ∧ v = y.2.2 n

theorem Part.zero {P : Str → Prop} {v : ℝ} (h : Part P 0 v) : v = 0 := by
  rcases h with ⟨-, rfl⟩ | ⟨n, -, rfl⟩ <;> rfl

open Classical in
theorem Part.sum {P : Str → Prop} {pr : ℝ} {cs : List (Contribution ℝ)} {v : ℝ} (h : Part P (lineAmount pr cs) v) :
    v = sumOf P cs := by
  rcases h with ⟨rfl, rfl⟩ | ⟨n, rfl, rfl⟩
  · simp [lineAmount, sumOf]
  · show contribAt cs n = _
    unfold contribAt sumOf
    congr 2
    refine List.filter_congr fun x _ => ?_
    rw [decide_eq_decide]

theorem sample_length (hc : compositions pf fuel L c c.sample = .ok comps) (hg : geometricLoop c g 0 c.sample = .ok geoms) :
    (envOf pf fuel L srt c comps geoms).layers.length = c.sample.length := by
  change (layerData c.sample comps geoms).length = _
  unfold layerData
  rw [List.length_zipWith, List.length_zip, (compositions_get _ _ hc).1, (geometric_get _ _ _ hg).1]
  simp

/-- What a request adds to the secondary excitation. -/
theorem reqYield_secondary (hL : SoundLibrary pf fuel L) (hc : compositions pf fuel L c c.sample = .ok comps)
    (hg : geometricLoop c g 0 c.sample = .ok geoms) (o : Options ℝ) (k : String) (i : Nat) (t : Str) (P : Str → Prop)
    (ray : ℝ × ℝ) (req : Request) (y : Amount ℝ) (h : ReqYield (envOf pf fuel L srt c comps geoms) o k i t ray req y)
    (v : ℝ) (hv : Part P y v) : v = secondaryTerm pf fuel L srt c o k i t P ray req := by
  rcases h with ⟨hthr, rfl⟩ | ⟨thr, fs, m, rd, hthr, hgt, hex, hmt, hrd, hcell⟩
  · rw [hv.zero]
    unfold secondaryTerm
    split
    · rfl
    · rw [if_neg]
      rintro ⟨⟨-, -, -, hf, thr, h1, h2⟩, -, -⟩
      refine absurd (hthr thr ?_) (not_lt.mpr h2)
      unfold thresholdFor
      rw [if_neg hf]
      exact h1
  have hreg := env_regular (srt := srt) (c := c) (comps := comps) (geoms := geoms) hL
  have hsort := hreg.factors _ _ _ _ hex
  have hfam : req.family ≠ "" := by
    rintro h0
    unfold thresholdFor at hthr
    rw [if_pos h0] at hthr
    cases hthr
  have hthr' : Xrf.getEnergyThreshold L req.element (String.ofList ((actualFamily req.family).toList.take 1)) = .ok thr := by
    unfold thresholdFor at hthr
    rw [if_neg hfam] at hthr
    exact hthr
  unfold secondaryTerm
  rw [excitedLine_eq hex]
  rcases hcell with ⟨hno, rfl⟩ | ⟨hk, l', f, hl', hact, hsel, mT, muIn, lw, mu0, cs, e1, e2, e3, e4, rfl⟩
  · rw [hv.zero]
    cases hf : SMap.find? fs t with
    | none => rfl
    | some f =>
      dsimp only
      split
      · rename_i hcond
        obtain ⟨⟨hk, hlay, hin, -, -⟩, hpos, hi, -⟩ := hcond
        obtain ⟨mm, q, h1, h2, -, -, h4⟩ := layers_get (srt := srt) hc hg i _ (List.getElem?_eq_getElem hi)
        have hsel : (t, f) ∈ selected req.family fs := by
          unfold selected
          rw [List.mem_filter]
          refine ⟨SMap.mem_of_find? hf, ?_⟩
          simp [hin, not_le.mpr hpos]
        have hfr : elementFraction pf fuel L c o i req.element = 0 := by
          by_contra hne
          refine hno ⟨hk, _, h4, ⟨?_, ?_, List.ne_nil_of_mem hsel⟩, List.mem_map.mpr ⟨_, hsel, rfl⟩⟩
          · rintro ⟨a, b⟩
            rcases hlay with hlay | hlay
            · omega
            · exact b hlay.symm
          · intro h0
            apply hne
            unfold elementFraction
            unfold fracOf at h0
            rw [sampleComposition_eq (List.getElem?_eq_getElem hi) h1]
            exact h0
        have hz : ∀ thr j s, contribution pf fuel L c o req.element thr i j t f.energy ray.1 s = 0 := by
          intro thr j s
          unfold contribution
          split
          · rfl
          · split
            · rfl
            · split
              · rfl
              · rw [hfr]; simp
        simp only [hz, ite_self]
        simp
      · rfl
  · have hf : SMap.find? fs t = some f := SMap.find?_of_mem hsort (List.mem_of_mem_filter hsel)
    obtain ⟨l, q, h1, h2, h3, h4⟩ := layers_get_inv (srt := srt) hc hg i l' hl'
    obtain ⟨r1, r2, r3, -, -⟩ := rayData_parts hrd
    have hT := env_mu_eq hc e1
    have hE := env_mu_eq hc e2
    rw [r1] at hE
    rw [hf]
    dsimp only
    have hs2 : inFamily req.family t = true ∧ 0 < f.factor := by
      unfold selected at hsel
      have := (List.mem_filter.mp hsel).2
      simp only [Bool.and_eq_true, decide_eq_true_eq, not_le] at this
      exact this
    rw [hv.sum]
    unfold cellContribs at e4
    by_cases ho : 0 < o.secondary
    · rw [if_pos ho] at e4
      rw [if_pos]
      · have hfr : fracOf o l' req.element = elementFraction pf fuel L c o i req.element := by
          unfold fracOf elementFraction
          rw [sampleComposition_eq h1 h2]
        rw [hthr', secondaryLoop_sum hL hc hg o ho m ray.1 ray.2 rd hrd req.element thr hmt i l' hl' muIn lw mu0 _ f.energy
          hE.symm e3 hfr t (freshTmp f mT) hT.symm P _ _ _ e4, sample_length hc hg, List.range_eq_range']
        rfl
      · refine ⟨⟨hk, ?_, hs2.1, hfam, thr, hthr', not_lt.mp hgt⟩, hs2.2, (List.getElem?_eq_some_iff.mp h1).1, ho⟩
        have := hact.1
        by_contra hh
        push Not at hh
        exact this ⟨hh.1, fun e => hh.2 e.symm⟩
    · rw [if_neg ho] at e4
      simp only [Outcome.ok.injEq] at e4
      subst e4
      rw [if_neg (fun hh => ho hh.2.2.2)]
      simp [sumOf]

end lemmas

/-! ## The properties of the call -/

section api

variable {R : Type} (pf : String → Outcome (SMap String ℝ)) (fuel : Nat) (L : Library ℝ)
  (srt : List (String × ℝ) → List (String × ℝ)) (c : Config ℝ R) (o : Options ℝ) (g : Bool)

theorem secondary_total (hL : SoundLibrary pf fuel L) (reqs : List Request) (hp : ∀ q ∈ reqs, ' ' ∉ q.element.toList)
    (b : Beam ℝ) (r : Result ℝ) (h : fluorescence pf fuel L srt c o g b (reqs.map .ok) = .ok r) (k : String) (i : Nat)
    (t : Str) (ht : ' ' ∉ t) (P : Str → Prop) (V : Amount ℝ → ℝ) (hV0 : V 0 = 0) (hVa : ∀ x y, V (x + y) = V x + V y)
    (hP : ∀ y, Part P y (V y)) :
    V (amount (leaf? r k i t)) =
      ((usedBeam c b).map (fun ray =>
        (reqs.map (secondaryTerm pf fuel L srt c o k i t P (behind pf fuel L c ray))).sum)).sum := by
  obtain ⟨comps, geoms, h1, h2, h3⟩ := fluorescence_ok h
  obtain ⟨-, hy⟩ := calculate_amount (env_consistent hL) (env_regular hL) o reqs hp _ r h3
  obtain ⟨ys, y1, y2⟩ := hy k i t ht
  have hsum : ∀ l : List (Amount ℝ), V l.sum = (l.map V).sum := by
    intro l
    induction l with
    | nil => exact hV0
    | cons a l ih => rw [List.sum_cons, List.map_cons, List.sum_cons, ← ih, hVa]
  have hray : ∀ ray y, RayYield (envOf pf fuel L srt c comps geoms) o k i t reqs ray y →
      V y = (reqs.map (secondaryTerm pf fuel L srt c o k i t P ray)).sum := by
    rintro ray y ⟨zs, z1, rfl⟩
    rw [hsum]
    congr 1
    clear y2 y1 hy h3 h hp
    induction z1 with
    | nil => rfl
    | cons a _ ih =>
      rw [List.map_cons, List.map_cons, reqYield_secondary hL h1 h2 o k i t P ray _ _ a _ (hP _)]
      exact congrArg _ ih
  rw [y2, hsum]
  have hl : ys.map V = ((usedBeam c b).map (behind pf fuel L c)).reverse.map
      (fun ray => (reqs.map (secondaryTerm pf fuel L srt c o k i t P ray)).sum) := by
    clear y2 h3 h
    generalize ((usedBeam c b).map (behind pf fuel L c)).reverse = rays at y1
    induction y1 with
    | nil => rfl
    | cons a _ ih => rw [List.map_cons, List.map_cons, hray _ _ a, ih]
  rw [hl, List.map_reverse, List.sum_reverse, List.map_map]
  rfl

/-- **C84** The secondary excitation returned for a line is the sum over the rays of the beam (attenuated by the filters),
the requests, the layers and the sources in each layer of de Boer's formula; a line that is not returned has none. -/
theorem C84_secondary (hL : SoundLibrary pf fuel L) (reqs : List Request) (hp : ∀ q ∈ reqs, ' ' ∉ q.element.toList)
    (b : Beam ℝ) (r : Result ℝ) (h : fluorescence pf fuel L srt c o g b (reqs.map .ok) = .ok r) (k : String) (i : Nat)
    (t : Str) (ht : ' ' ∉ t) :
    ((leaf? r k i t).map Leaf.secondary).getD 0 =
      ((usedBeam c b).map (fun ray => (reqs.map
        (secondaryTerm pf fuel L srt c o k i t (fun _ => True) (behind pf fuel L c ray))).sum)).sum := by
  rw [← secondary_total pf fuel L srt c o g hL reqs hp b r h k i t ht (fun _ => True) (fun y => y.2.1) rfl (fun _ _ => rfl)
    (fun y => Or.inl ⟨rfl, rfl⟩)]
  cases leaf? r k i t <;> rfl

/-- **C84** The part returned under the name of a source is what that source contributes. -/
theorem C84_by_source (hL : SoundLibrary pf fuel L) (reqs : List Request) (hp : ∀ q ∈ reqs, ' ' ∉ q.element.toList)
    (b : Beam ℝ) (r : Result ℝ) (h : fluorescence pf fuel L srt c o g b (reqs.map .ok) = .ok r) (k : String) (i : Nat)
    (t : Str) (ht : ' ' ∉ t) (n : Str) :
    ((leaf? r k i t).map (fun l => (l.contrib.find? n).getD 0)).getD 0 =
      ((usedBeam c b).map (fun ray => (reqs.map
        (secondaryTerm pf fuel L srt c o k i t (fun x => x = n) (behind pf fuel L c ray))).sum)).sum := by
  rw [← secondary_total pf fuel L srt c o g hL reqs hp b r h k i t ht (fun x => x = n) (fun y => y.2.2 n) rfl
    (fun _ _ => rfl) (fun y => Or.inr ⟨n, rfl, rfl⟩)]
  cases leaf? r k i t <;> rfl

/-- **C84** No secondary excitation when it was not asked for. -/
theorem C84_none (ho : ¬ 0 < o.secondary) (k : String) (i : Nat) (t : Str) (P : Str → Prop) (ray : ℝ × ℝ) (req : Request) :
    secondaryTerm pf fuel L srt c o k i t P ray req = 0 := by
  unfold secondaryTerm
  split
  · rfl
  · rw [if_neg (fun hh => ho hh.2.2.2)]

end api

end Multilayer
end Fisx
