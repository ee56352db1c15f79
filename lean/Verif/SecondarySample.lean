import Verif.SecondaryReturns

/-!
# Secondary excitation of whole samples (C141)

From the geometry of one source and one line to the secondary excitation that the calculation returns, for samples of any
number of layers.
-/

set_option linter.unusedSectionVars false

namespace Fisx
namespace Multilayer

open MathFn

section spec

variable {R : Type} (pf : String → Outcome (SMap String ℝ)) (fuel : Nat) (L : Library ℝ)
  (srt : List (String × ℝ) → List (String × ℝ)) (c : Config ℝ R)

/-- The formula of the secondary excitation of a line by one source, with the geometry `G` in place of de Boer's integrals. -/
noncomputable def contributionWith (G : Nat → Nat → ℝ → ℝ → ℝ → ℝ) (o : Options ℝ) (el : String) (thr : ℝ) (i j : Nat)
    (t : Str) (eT : ℝ) (e : ℝ) (s : Str × ℝ × ℝ) : ℝ :=
  if s.2.1 < thr then 0
  else match (excitedLines L el s.2.1).find? t with
    | none => 0
    | some f =>
      if i ≠ j ∧ (reaching pf fuel L c j e / reaching pf fuel L c i e < 1 / 10000 ∨ f.rate < 1 / 10 ^ 30) then 0
      else s.2.2 * f.rate * (elementFraction pf fuel L c o i el / (2 * sinIn c)) *
        G i j e s.2.1 (sampleMu pf fuel L c i eT)

open Classical in
/-- The secondary excitation of a line by one ray because of one request, with the geometry `G`. -/
noncomputable def termWith (G : Nat → Nat → ℝ → ℝ → ℝ → ℝ) (o : Options ℝ) (k : String) (i : Nat) (t : Str) (ray : ℝ × ℝ)
    (req : Xrf.Request) : ℝ :=
  match excitedLine L req.element ray.1 ray.2 t with
  | none => 0
  | some f =>
    if Asked L req k i t ray.1 ∧ 0 < f.factor ∧ i < c.sample.length ∧ 0 < o.secondary then
      ((List.range c.sample.length).map (fun j => ((sources pf fuel L srt c o j ray).map (fun s =>
        contributionWith pf fuel L c G o req.element
          (valueOr0 (Xrf.getEnergyThreshold L req.element (String.ofList ((actualFamily req.family).toList.take 1))))
          i j t f.energy ray.1 s)).sum)).sum
    else 0

/-- The secondary excitation of a line with the geometry `G`: the sum over the rays and the requests. -/
noncomputable def secondaryWith (G : Nat → Nat → ℝ → ℝ → ℝ → ℝ) (o : Options ℝ) (k : String) (i : Nat) (t : Str)
    (b : Beam ℝ) (reqs : List Xrf.Request) : ℝ :=
  ((usedBeam c b).map (fun ray => (reqs.map (termWith pf fuel L srt c G o k i t (behind pf fuel L c ray))).sum)).sum

/-- The energies that meet in a calculation: a ray of the beam, what it makes layer `j` emit, and the line `t` of a requested
element in layer `i`. -/
def Occurs (o : Options ℝ) (t : Str) (b : Beam ℝ) (reqs : List Xrf.Request) (i j : Nat) (e s muT : ℝ) : Prop :=
  i < c.sample.length ∧ j < c.sample.length ∧ ∃ ray ∈ usedBeam c b, e = ray.1 ∧
    (∃ src ∈ sources pf fuel L srt c o j (behind pf fuel L c ray), s = src.2.1) ∧
    ∃ req ∈ reqs, ∃ f, excitedLine L req.element ray.1 (behind pf fuel L c ray).2 t = some f ∧
      muT = sampleMu pf fuel L c i f.energy

end spec

section sums

theorem sum_between {α : Type} (f g h : α → ℝ) : ∀ l : List α, (∀ a ∈ l, |f a - g a| ≤ h a) →
    |(l.map f).sum - (l.map g).sum| ≤ (l.map h).sum
  | [], _ => by simp
  | a :: l, hl => by
    have h1 := hl a List.mem_cons_self
    have h2 := sum_between f g h l (fun x hx => hl x (List.mem_cons_of_mem _ hx))
    simp only [List.map_cons, List.sum_cons]
    calc |f a + (l.map f).sum - (g a + (l.map g).sum)| = |(f a - g a) + ((l.map f).sum - (l.map g).sum)| := by
          congr 1; ring
      _ ≤ |f a - g a| + |(l.map f).sum - (l.map g).sum| := abs_add_le _ _
      _ ≤ _ := add_le_add h1 h2

theorem sum_above {α : Type} (f h : α → ℝ) : ∀ l : List α, (∀ a ∈ l, -h a ≤ f a) → -(l.map h).sum ≤ (l.map f).sum
  | [], _ => by simp
  | a :: l, hl => by
    have h1 := hl a List.mem_cons_self
    have h2 := sum_above f h l (fun x hx => hl x (List.mem_cons_of_mem _ hx))
    simp only [List.map_cons, List.sum_cons]
    linarith

end sums

section transfer

variable {R : Type} (pf : String → Outcome (SMap String ℝ)) (fuel : Nat) (L : Library ℝ)
  (srt : List (String × ℝ) → List (String × ℝ)) (c : Config ℝ R)

theorem secondaryTerm_with (o : Options ℝ) (k : String) (i : Nat) (t : Str) (ray : ℝ × ℝ) (req : Xrf.Request) :
    secondaryTerm pf fuel L srt c o k i t (fun _ => True) ray req =
      termWith pf fuel L srt c (secondaryGeometry pf fuel L c) o k i t ray req := by
  unfold secondaryTerm termWith
  simp only [if_true]
  rfl

/-- The factor of the geometry is not negative. -/
theorem factor_nonneg (hL : SoundLibrary pf fuel L) (hs : Sensible pf fuel L c) (hin : 0 < sinIn c) (o : Options ℝ) (el : String)
    (i j : Nat) {ray : ℝ × ℝ} (hw : 0 ≤ ray.2) {s : Str × ℝ × ℝ} (hs' : s ∈ sources pf fuel L srt c o j ray) {t : Str}
    {f : Factor ℝ} (hf : (excitedLines L el s.2.1).find? t = some f) :
    0 ≤ s.2.2 * f.rate * (elementFraction pf fuel L c o i el / (2 * sinIn c)) := by
  have hsrc := source_nonneg pf fuel L c srt hs o j hw hs'
  have hf'' : 0 ≤ f.rate := excitedLines_rate pf fuel L c hL hs _ (SMap.mem_of_find? hf)
  have hfrac : 0 ≤ elementFraction pf fuel L c o i el := by
    unfold elementFraction
    split
    · cases hf : (sampleComposition pf fuel L c i).find? el with
      | none => simp
      | some v => exact sampleComposition_nonneg hs i _ (SMap.mem_of_find? hf)
    · norm_num
  exact mul_nonneg (mul_nonneg hsrc hf'') (div_nonneg hfrac (by linarith))

/-- If the geometry differs from `G` at most by `S` for all energies that meet, then the sums differ at most by the sum
with `S`. -/
theorem secondary_between (hL : SoundLibrary pf fuel L) (hs : Sensible pf fuel L c) (hin : 0 < sinIn c) (o : Options ℝ)
    (k : String) (i : Nat) (t : Str) (b : Beam ℝ) (reqs : List Xrf.Request) (hb : ∀ ray ∈ usedBeam c b, 0 ≤ ray.2)
    (F G S : Nat → Nat → ℝ → ℝ → ℝ → ℝ)
    (h : ∀ j e s muT, Occurs pf fuel L srt c o t b reqs i j e s muT → |F i j e s muT - G i j e s muT| ≤ S i j e s muT) :
    |secondaryWith pf fuel L srt c F o k i t b reqs - secondaryWith pf fuel L srt c G o k i t b reqs| ≤
      secondaryWith pf fuel L srt c S o k i t b reqs := by
  unfold secondaryWith
  apply sum_between
  intro ray hray
  apply sum_between
  intro req hreq
  have hw : 0 ≤ (behind pf fuel L c ray).2 := mul_nonneg (hb ray hray) (C115_beam hs _).1
  unfold termWith
  cases hf : excitedLine L req.element (behind pf fuel L c ray).1 (behind pf fuel L c ray).2 t with
  | none => simp
  | some f =>
    simp only
    split
    swap
    · simp
    rename_i hh
    apply sum_between
    intro j hj
    apply sum_between
    intro s hs'
    unfold contributionWith
    split
    · simp
    cases hf' : (excitedLines L req.element s.2.1).find? t with
    | none => simp
    | some f' =>
      simp only
      split
      · simp
      rw [← mul_sub, abs_mul, abs_of_nonneg (factor_nonneg pf fuel L srt c hL hs hin o req.element i j hw hs' hf')]
      refine mul_le_mul_of_nonneg_left (h j _ _ _ ⟨hh.2.2.1, List.mem_range.1 hj, ray, hray, rfl, ⟨s, hs', rfl⟩, req, hreq, f, hf, rfl⟩)
        (factor_nonneg pf fuel L srt c hL hs hin o req.element i j hw hs' hf')

/-- If the geometry is never below `-S` for energies that meet, the sum is not below minus the sum with `S`. -/
theorem secondary_above (hL : SoundLibrary pf fuel L) (hs : Sensible pf fuel L c) (hin : 0 < sinIn c) (o : Options ℝ)
    (k : String) (i : Nat) (t : Str) (b : Beam ℝ) (reqs : List Xrf.Request) (hb : ∀ ray ∈ usedBeam c b, 0 ≤ ray.2)
    (F S : Nat → Nat → ℝ → ℝ → ℝ → ℝ)
    (h : ∀ j e s muT, Occurs pf fuel L srt c o t b reqs i j e s muT → -S i j e s muT ≤ F i j e s muT) :
    -secondaryWith pf fuel L srt c S o k i t b reqs ≤ secondaryWith pf fuel L srt c F o k i t b reqs := by
  unfold secondaryWith
  apply sum_above
  intro ray hray
  apply sum_above
  intro req hreq
  have hw : 0 ≤ (behind pf fuel L c ray).2 := mul_nonneg (hb ray hray) (C115_beam hs _).1
  unfold termWith
  cases hf : excitedLine L req.element (behind pf fuel L c ray).1 (behind pf fuel L c ray).2 t with
  | none => simp
  | some f =>
    simp only
    split
    swap
    · simp
    rename_i hh
    apply sum_above
    intro j hj
    apply sum_above
    intro s hs'
    unfold contributionWith
    split
    · simp
    cases hf' : (excitedLines L req.element s.2.1).find? t with
    | none => simp
    | some f' =>
      simp only
      split
      · simp
      rw [← mul_neg]
      exact mul_le_mul_of_nonneg_left (h j _ _ _ ⟨hh.2.2.1, List.mem_range.1 hj, ray, hray, rfl, ⟨s, hs', rfl⟩, req, hreq, f, hf, rfl⟩)
        (factor_nonneg pf fuel L srt c hL hs hin o req.element i j hw hs' hf')

theorem secondary_returned (hL : SoundLibrary pf fuel L) (o : Options ℝ) (g : Bool) (reqs : List Xrf.Request)
    (hp : ∀ q ∈ reqs, ' ' ∉ q.element.toList) (b : Beam ℝ) (r : Result ℝ)
    (h : fluorescence pf fuel L srt c o g b (reqs.map .ok) = .ok r) (k : String) (i : Nat) (t : Str) (ht : ' ' ∉ t)
    (l : Leaf ℝ) (hl : leaf? r k i t = some l) :
    l.secondary = secondaryWith pf fuel L srt c (secondaryGeometry pf fuel L c) o k i t b reqs := by
  have h1 := C84_secondary pf fuel L srt c o g hL reqs hp b r h k i t ht
  rw [hl] at h1
  change l.secondary = _ at h1
  rw [h1]
  exact congrArg List.sum (List.map_congr_left (fun ray _ => congrArg List.sum (List.map_congr_left (fun req _ =>
    secondaryTerm_with pf fuel L srt c o k i t _ req))))

/-! ## The theorems -/

/-- How far below zero the geometry can be: nothing inside a layer, the error of the exponential integral at positive
arguments (proportional to 1.2e-6) between layers. -/
noncomputable def geometrySlack (i j : Nat) (e s muT : ℝ) : ℝ :=
  if i = j then 0
  else if i < j then Real.exp (-(muT * massThicknessOf c i / sinOut c)) *
    crossSlack (sampleMu pf fuel L c j e / sinIn c) (muT / sinOut c) (massThicknessOf c i) (massThicknessOf c j)
      (sampleMu pf fuel L c i s) (sampleMu pf fuel L c j s) (opticalDepth pf fuel L c (i + 1) (j - (i + 1)) s)
  else Real.exp (-(sampleMu pf fuel L c j e / sinIn c * massThicknessOf c j)) *
    crossSlack (muT / sinOut c) (nudged (sampleMu pf fuel L c j e / sinIn c) (sampleMu pf fuel L c j s))
      (massThicknessOf c j) (massThicknessOf c i) (sampleMu pf fuel L c j s) (sampleMu pf fuel L c i s)
      (opticalDepth pf fuel L c (j + 1) (i - (j + 1)) s)

/-- The energies that meet are attenuated in the layers concerned, and nowhere amplified. -/
def Attenuated (o : Options ℝ) (t : Str) (b : Beam ℝ) (reqs : List Xrf.Request) (i : Nat) : Prop :=
  ∀ j e s muT, Occurs pf fuel L srt c o t b reqs i j e s muT → 0 < muT ∧ 0 < sampleMu pf fuel L c j e ∧
    0 < sampleMu pf fuel L c i s ∧ 0 < sampleMu pf fuel L c j s ∧ ∀ k, 0 ≤ sampleMu pf fuel L c k s

/-- **C141** (partial) For samples of any number of layers, the secondary excitation returned for a line is never below zero by
more than the sum over the sources in other layers of the errors of the exponential integral at positive arguments.
Equal coefficients, thin and thick layers are included. Missing: that it is not negative, which the errors of the
exponential integral do not allow to say. -/
theorem C141_sample_not_negative_partial (o : Options ℝ) (g : Bool)
    (hL : SoundLibrary pf fuel L) (hs : Sensible pf fuel L c) (hin : 0 < sinIn c) (hout : 0 < sinOut c)
    (hD : ∀ l ∈ c.sample, 0 < l.density * l.thickness)
    (reqs : List Xrf.Request) (hp : ∀ q ∈ reqs, ' ' ∉ q.element.toList) (b : Beam ℝ)
    (hb : ∀ ray ∈ usedBeam c b, 0 ≤ ray.2) (r : Result ℝ)
    (h : fluorescence pf fuel L srt c o g b (reqs.map .ok) = .ok r) (k : String) (i : Nat)
    (t : Str) (ht : ' ' ∉ t) (hA : Attenuated pf fuel L srt c o t b reqs i) (l : Leaf ℝ) (hl : leaf? r k i t = some l) :
    -secondaryWith pf fuel L srt c (geometrySlack pf fuel L c) o k i t b reqs ≤ l.secondary := by
  rw [secondary_returned pf fuel L srt c hL o g reqs hp b r h k i t ht l hl]
  have hDpos : ∀ n, n < c.sample.length → 0 < massThicknessOf c n := by
    intro n hn
    unfold massThicknessOf
    rw [List.getElem?_eq_getElem hn]
    exact hD _ (List.getElem_mem hn)
  have hD0 : ∀ n, 0 ≤ massThicknessOf c n := by
    intro n
    by_cases hn : n < c.sample.length
    · exact (hDpos n hn).le
    · unfold massThicknessOf
      rw [List.getElem?_eq_none (not_lt.1 hn)]
  apply secondary_above pf fuel L srt c hL hs hin o k i t b reqs hb
  intro j e s muT hO
  obtain ⟨a1, a2, a3, a4, a5⟩ := hA j e s muT hO
  unfold geometrySlack
  rcases lt_trichotomy i j with hij | rfl | hji
  · rw [if_neg hij.ne, if_pos hij]
    exact C141_below_not_negative_partial pf fuel L c hij hin hout a1 a2 a3 a4 a5 hD0 (hDpos i hO.1)
  · rw [if_pos rfl, neg_zero]
    exact C141_same_layer_nonneg pf fuel L c i e s muT
  · rw [if_neg hji.ne', if_neg (not_lt.2 hji.le)]
    exact C141_above_not_negative_partial pf fuel L c hji hin hout a1 a2 a3 a4 a5 hD0 (hDpos j hO.2.1)

/-- The value used inside a thick layer: that of an infinite one (`C136_thick_limit_partial`). -/
noncomputable def infiniteValue (a q m : ℝ) : ℝ := m / a * Real.log (1 + a / m) / ((a + q) * m)

/-- How far the geometry inside a layer can be from the enhancement integral: thick layers are taken as infinite, thin ones
have no secondary excitation, and else the error is the one of the exponential integrals. -/
noncomputable def selfError (a q m d : ℝ) : ℝ :=
  if 10 < (a + q) * d then |infiniteValue a q m - layerIntegral a q m d| + |infiniteValue q a m - layerIntegral q a m d|
  else if (a + q) * d < 0.01 then layerIntegral a q m d + layerIntegral q a m d
  else triangleError a q m d + triangleError q a m d

/-- How far the geometry can be from the enhancement integral. Sources below layer `i` are left out when it lets less than a
thousandth of the line through. -/
noncomputable def geometryError (i j : Nat) (e s muT : ℝ) : ℝ :=
  if i = j then selfError (sampleMu pf fuel L c i e / sinIn c) (muT / sinOut c) (sampleMu pf fuel L c i s) (massThicknessOf c i)
  else if i < j then
    if Real.exp (-(muT * massThicknessOf c i / sinOut c)) < 1 / 1000 then |enhancement pf fuel L c i j e s muT|
    else Real.exp (-(muT * massThicknessOf c i / sinOut c)) *
      crossError (sampleMu pf fuel L c j e / sinIn c) (muT / sinOut c) (massThicknessOf c i) (massThicknessOf c j)
        (sampleMu pf fuel L c i s) (sampleMu pf fuel L c j s) (opticalDepth pf fuel L c (i + 1) (j - (i + 1)) s)
  else Real.exp (-(sampleMu pf fuel L c j e / sinIn c * massThicknessOf c j)) *
    crossError (-(sampleMu pf fuel L c j e / sinIn c)) (-(muT / sinOut c)) (massThicknessOf c i) (massThicknessOf c j)
      (sampleMu pf fuel L c i s) (sampleMu pf fuel L c j s) (opticalDepth pf fuel L c (j + 1) (i - (j + 1)) s)

theorem deBoerL0_any {mu1 mu2 muj density thickness : ℝ} (h1 : 0 < mu1) (h2 : 0 < mu2) (hmj : 0 < muj) :
    (10 < (mu1 + mu2) * (density * thickness) →
      valueOr0 (deBoerL0 mu1 mu2 muj density thickness) = infiniteValue mu1 mu2 muj) ∧
    ((mu1 + mu2) * (density * thickness) < 0.01 → valueOr0 (deBoerL0 mu1 mu2 muj density thickness) = 0) := by
  rw [mul_comm density thickness]
  constructor
  · intro h
    unfold deBoerL0
    rw [if_neg (by push Not; exact ⟨h1, h2, hmj⟩)]
    dsimp only
    rw [if_pos h]
    rfl
  · intro h
    unfold deBoerL0
    rw [if_neg (by push Not; exact ⟨h1, h2, hmj⟩)]
    dsimp only
    rw [if_neg (by push Not; linarith), if_pos h]
    rfl

/-- Inside a layer of any thickness. -/
theorem same_layer_any {i : Nat} {e s muT : ℝ}
    (hin : 0 < sinIn c) (hout : 0 < sinOut c) (hT : 0 < muT) (hd : 0 < massThicknessOf c i)
    (he : 0 < sampleMu pf fuel L c i e) (hs : 0 < sampleMu pf fuel L c i s)
    (hne1 : sampleMu pf fuel L c i e / sinIn c ≠ sampleMu pf fuel L c i s)
    (hne2 : muT / sinOut c ≠ sampleMu pf fuel L c i s) :
    |secondaryGeometry pf fuel L c i i e s muT - enhancement pf fuel L c i i e s muT| ≤
      selfError (sampleMu pf fuel L c i e / sinIn c) (muT / sinOut c) (sampleMu pf fuel L c i s) (massThicknessOf c i) := by
  have ha : 0 < sampleMu pf fuel L c i e / sinIn c := div_pos he hin
  have hq : 0 < muT / sinOut c := div_pos hT hout
  unfold selfError
  split_ifs with t1 t2
  rotate_left 2
  · exact (C141_same_layer_partial pf fuel L c hin hout hT he hs hne1 hne2 (not_lt.1 t2) (not_lt.1 t1)).2
  all_goals
    have hE : enhancement pf fuel L c i i e s muT =
        layerIntegral (sampleMu pf fuel L c i e / sinIn c) (muT / sinOut c) (sampleMu pf fuel L c i s) (massThicknessOf c i)
        + layerIntegral (muT / sinOut c) (sampleMu pf fuel L c i e / sinIn c) (sampleMu pf fuel L c i s)
            (massThicknessOf c i) := by
      unfold enhancement pathBetween
      simp only [if_true]
      exact square_eq hq ha hs hne1 hd
    have p1 := layerIntegral_pos (mu2 := muT / sinOut c) ha hs hd
    have p2 := layerIntegral_pos (mu2 := sampleMu pf fuel L c i e / sinIn c) hq hs hd
    rw [hE]
    unfold secondaryGeometry nudged
    simp only [if_true, if_neg hne1]
    unfold massThicknessOf at *
    cases hl : c.sample[i]? with
    | none => simp [hl] at hd
    | some l => ?_
    simp only [hl] at hd t1 p1 p2 ⊢
  · rw [(deBoerL0_any ha hq hs).1 t1, (deBoerL0_any hq ha hs).1 (by rw [add_comm]; exact t1), add_sub_add_comm]
    exact abs_add_le _ _
  · simp only [hl] at t2
    rw [(deBoerL0_any ha hq hs).2 t2, (deBoerL0_any hq ha hs).2 (by rw [add_comm]; exact t2), add_zero, zero_sub, abs_neg,
      abs_of_pos (add_pos p1 p2)]

/-- The coefficient of the source differs from the others (else there is no result, C60). -/
def Distinct (o : Options ℝ) (t : Str) (b : Beam ℝ) (reqs : List Xrf.Request) (i : Nat) : Prop :=
  ∀ j e s muT, Occurs pf fuel L srt c o t b reqs i j e s muT →
    sampleMu pf fuel L c j e / sinIn c ≠ sampleMu pf fuel L c j s ∧ muT / sinOut c ≠ sampleMu pf fuel L c i s

/-- **C141** (partial) For samples of any number of layers of any thickness, the secondary excitation returned for a line is the
sum of the enhancement integrals over all rays, requests, layers and sources, within the sum of the stated errors.
Missing: that these are small (C133, C136, C137), equal coefficients, and sources in layers that less than 1e-4 of the
beam reaches. -/
theorem C141_sample_partial (o : Options ℝ) (g : Bool)
    (hL : SoundLibrary pf fuel L) (hs : Sensible pf fuel L c) (hin : 0 < sinIn c) (hout : 0 < sinOut c)
    (hD : ∀ l ∈ c.sample, 0 < l.density * l.thickness)
    (reqs : List Xrf.Request) (hp : ∀ q ∈ reqs, ' ' ∉ q.element.toList) (b : Beam ℝ)
    (hb : ∀ ray ∈ usedBeam c b, 0 ≤ ray.2) (r : Result ℝ)
    (h : fluorescence pf fuel L srt c o g b (reqs.map .ok) = .ok r) (k : String) (i : Nat)
    (t : Str) (ht : ' ' ∉ t) (hA : Attenuated pf fuel L srt c o t b reqs i) (hO : Distinct pf fuel L srt c o t b reqs i)
    (l : Leaf ℝ) (hl : leaf? r k i t = some l) :
    |l.secondary - secondaryWith pf fuel L srt c (enhancement pf fuel L c) o k i t b reqs| ≤
      secondaryWith pf fuel L srt c (geometryError pf fuel L c) o k i t b reqs := by
  rw [secondary_returned pf fuel L srt c hL o g reqs hp b r h k i t ht l hl]
  have hDpos : ∀ n, n < c.sample.length → 0 < massThicknessOf c n := by
    intro n hn
    unfold massThicknessOf
    rw [List.getElem?_eq_getElem hn]
    exact hD _ (List.getElem_mem hn)
  have hD0 : ∀ n, 0 ≤ massThicknessOf c n := by
    intro n
    by_cases hn : n < c.sample.length
    · exact (hDpos n hn).le
    · unfold massThicknessOf
      rw [List.getElem?_eq_none (not_lt.1 hn)]
  apply secondary_between pf fuel L srt c hL hs hin o k i t b reqs hb
  intro j e s muT hoc
  obtain ⟨a1, a2, a3, a4, a5⟩ := hA j e s muT hoc
  obtain ⟨b1, b2⟩ := hO j e s muT hoc
  unfold geometryError
  rcases lt_trichotomy i j with hij | rfl | hji
  · rw [if_neg hij.ne, if_pos hij]
    split_ifs with hg
    · unfold secondaryGeometry
      simp only [if_neg hij.ne, if_pos hij, if_pos hg]
      rw [zero_sub, abs_neg]
    · exact C141_source_below_partial pf fuel L c hij hin hout a1 a2 a3 a4 a5 hD0 (hDpos i hoc.1) b2 (not_lt.1 hg)
  · rw [if_pos rfl]
    exact same_layer_any pf fuel L c hin hout a1 (hDpos i hoc.1) a2 a3 b1 b2
  · rw [if_neg hji.ne', if_neg (not_lt.2 hji.le)]
    exact C141_source_above_partial pf fuel L c hji hin hout a1 a2 a3 a4 a5 hD0 (hDpos i hoc.1) b1

end transfer

end Multilayer
end Fisx
