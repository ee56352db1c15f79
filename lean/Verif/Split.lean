import Verif.MultilayerParts
import Verif.MultilayerExample

/-!
# C157: splitting a layer of the sample

A layer split in two layers of the same material gives, in the two together, the primary fluorescence of the whole layer, and
does not change that of the other layers.
-/

set_option linter.unusedSectionVars false

namespace Fisx
namespace Multilayer

open Xrf (Request)

/-- Primary fluorescence of a line as it reaches the detector; 0 for a line that is not in the result. -/
noncomputable def detected (r : Result ℝ) (k : String) (i : Nat) (t : Str) : ℝ :=
  ((leaf? r k i t).map (fun l => l.primary * l.efficiency)).getD 0

section split

variable {R : Type} (pf : String → Outcome (SMap String ℝ)) (fuel : Nat) (L : Library ℝ) (c : Config ℝ R)

/-- The composition of a layer. -/
noncomputable def compOf (x : Layer ℝ) : SMap String ℝ :=
  match layerComposition pf fuel L c x with
  | .ok m => m
  | _ => []

/-- The coefficient of a layer. -/
noncomputable def muOf (x : Layer ℝ) (e : ℝ) : ℝ :=
  valueOr0 (do let m ← layerMu pf fuel L c x e (compOf pf fuel L c x); return m.total)

/-- The transmission of a layer on the way out. -/
noncomputable def outOf (x : Layer ℝ) (e : ℝ) : ℝ :=
  valueOr0 (layerTransmission pf fuel L c x e c.alphaOut (compOf pf fuel L c x))

/-- What happens behind the sample. -/
noncomputable def restOf (e : ℝ) : ℝ :=
  (c.attenuators.map (fun a => valueOr0 (layerTransmission pf fuel L c a e 90 []))).prod *
    (c.userAttenuators.map (fun a => a.getTransmission e)).prod *
    valueOr0 (if c.detector.layer.hasMaterial ∨ c.detector.layer.materialName.length > 0 then
        detectorIntrinsic pf fuel L c.detector.layer e else .ok 1)

variable {pf fuel L c}

theorem sampleComposition_at {i : Nat} {x : Layer ℝ} (h : c.sample[i]? = some x) :
    sampleComposition pf fuel L c i = compOf pf fuel L c x := by
  unfold sampleComposition compOf
  rw [h]
  rfl

theorem sampleMu_at {i : Nat} {x : Layer ℝ} (h : c.sample[i]? = some x) (e : ℝ) :
    sampleMu pf fuel L c i e = muOf pf fuel L c x e := by
  unfold sampleMu muOf
  rw [sampleComposition_at h, h]

theorem massThickness_at {i : Nat} {x : Layer ℝ} (h : c.sample[i]? = some x) :
    massThicknessOf c i = x.density * x.thickness := by
  unfold massThicknessOf
  rw [h]

theorem range_take {α : Type} (l : List (Layer ℝ)) (F : Nat → α) (G : Layer ℝ → α)
    (hFG : ∀ j x, l[j]? = some x → F j = G x) : ∀ i ≤ l.length, (List.range i).map F = (l.take i).map G
  | 0, _ => by simp
  | i + 1, h => by
    have hi : i < l.length := h
    rw [List.range_succ, List.map_append, range_take l F G hFG i (by omega), List.take_add_one,
      List.getElem?_eq_getElem hi, List.map_append]
    simp [hFG i _ (List.getElem?_eq_getElem hi)]

theorem reaching_take {i : Nat} (hi : i ≤ c.sample.length) (e : ℝ) :
    reaching pf fuel L c i e =
      Real.exp (-((c.sample.take i).map (fun x => x.density * x.thickness * muOf pf fuel L c x e)).sum / sinIn c) := by
  unfold reaching
  rw [range_take c.sample _ (fun x => x.density * x.thickness * muOf pf fuel L c x e) ?_ i hi]
  intro j x hx
  rw [massThickness_at hx, sampleMu_at hx]

theorem efficiency_take (hL : SoundLibrary pf fuel L) {srt : List (String × ℝ) → List (String × ℝ)} {o : Options ℝ}
    {reqs : List Request} (hp : ∀ q ∈ reqs, ' ' ∉ q.element.toList) {b : Beam ℝ} {r : Result ℝ}
    (h : fluorescence pf fuel L srt c o false b (reqs.map .ok) = .ok r) {k : String} {i : Nat} {t : Str} (ht : ' ' ∉ t)
    (hi : i ≤ c.sample.length) {l : Leaf ℝ} (hl : leaf? r k i t = some l) :
    l.efficiency = ((c.sample.take i).map (fun x => outOf pf fuel L c x l.energy)).prod * restOf pf fuel L c l.energy ∧
    ∀ x ∈ c.sample.take i, ∃ v, layerTransmission pf fuel L c x l.energy c.alphaOut (compOf pf fuel L c x) = .ok v := by
  obtain ⟨T, A, q, d, h1, h2, h3, h4, h5⟩ := C73_efficiency pf fuel L srt c o false hL reqs hp b r h k i t ht l hl
  have hT : (List.range i).map T = (c.sample.take i).map (fun x => outOf pf fuel L c x l.energy) := by
    have := range_take c.sample (fun j => if j < i then T j else
        ((c.sample[j]?).map (fun x => outOf pf fuel L c x l.energy)).getD 0) (fun x => outOf pf fuel L c x l.energy) (by
      intro j x hx
      by_cases hj : j < i
      · simp only [if_pos hj]
        obtain ⟨lj, s1, s2⟩ := h1 j hj
        rw [hx] at s1
        cases s1
        unfold outOf
        rw [← sampleComposition_at hx, s2]
        rfl
      · simp only [if_neg hj, hx, Option.map_some, Option.getD_some]) i hi
    rw [← this]
    apply List.map_congr_left
    intro j hj
    rw [if_pos (List.mem_range.1 hj)]
  have hA : A = c.attenuators.map (fun a => valueOr0 (layerTransmission pf fuel L c a l.energy 90 [])) := by
    clear h5
    generalize c.attenuators = as at h2
    induction h2 with
    | nil => rfl
    | cons a _ ih => rw [List.map_cons, ← ih, a]; rfl
  rw [if_neg (by simp)] at h3
  cases h3
  constructor
  · rw [h5, hT, hA]
    unfold restOf
    rw [h4]
    show _ = _ * (_ * _ * d)
    ring
  · intro x hx
    obtain ⟨j, hj, rfl⟩ := List.mem_iff_getElem.1 hx
    rw [List.length_take] at hj
    have hji : j < i := by omega
    obtain ⟨lj, s1, s2⟩ := h1 j hji
    refine ⟨T j, ?_⟩
    have : (c.sample.take i)[j] = lj := by
      rw [List.getElem_take]
      rw [List.getElem?_eq_getElem (by omega)] at s1
      exact Option.some.inj s1
    rw [this, ← sampleComposition_at s1]
    exact s2

theorem absSin_out (ha : 0 < c.alphaOut) : Layer.absSin c.alphaOut = sinOut c := by
  unfold Layer.absSin sinOut
  rw [abs_of_pos ha]
  ring_nf

theorem outOf_exp (ha : 0 < c.alphaOut) (hs : 0 < sinOut c) {x : Layer ℝ} (hf : x.funnyFactor = 1) {e v : ℝ}
    (h : layerTransmission pf fuel L c x e c.alphaOut (compOf pf fuel L c x) = .ok v) :
    outOf pf fuel L c x e = Real.exp (-(x.density * x.thickness * muOf pf fuel L c x e / sinOut c)) := by
  obtain ⟨m, h1, -, h3⟩ := C73_layer (pf := pf) (fuel := fuel) (L := L) (c := c) x e c.alphaOut (by rw [absSin_out ha]; exact hs) _ v h
  unfold outOf muOf
  rw [h, h1]
  show v = _
  rw [h3]
  unfold beerLambert
  rw [hf, absSin_out ha]
  simp only [sub_self, zero_add, one_mul, Outcome.ok_bind, Outcome.pure_eq, valueOr0]
  congr 1
  ring

/-- The energy of a line does not depend on what excites it. -/
theorem excited_energy (c : Config ℝ R) (hL : SoundLibrary pf fuel L) {el : String} {e w e' w' : ℝ} {fs fs' : SMap Str (Factor ℝ)} {t : Str}
    {f f' : Factor ℝ} (h : (do let x ← L.getElement el; x.data.getFactors e w) = .ok fs)
    (h' : (do let x ← L.getElement el; x.data.getFactors e' w') = .ok fs') (hf : fs.find? t = some f)
    (hf' : fs'.find? t = some f') : f.energy = f'.energy :=
  (env_consistent (srt := id) (c := c) (comps := []) (geoms := []) hL).energy el e w fs e' w' fs' t f f' h h' hf hf'

theorem leaf_energy (hL : SoundLibrary pf fuel L) {srt : List (String × ℝ) → List (String × ℝ)} {o : Options ℝ} {g : Bool}
    {reqs : List Request} (hp : ∀ q ∈ reqs, ' ' ∉ q.element.toList) {b : Beam ℝ} {r : Result ℝ}
    (h : fluorescence pf fuel L srt c o g b (reqs.map .ok) = .ok r) {k : String} {i : Nat} {t : Str} (ht : ' ' ∉ t)
    {l : Leaf ℝ} (hl : leaf? r k i t = some l) :
    ∃ el fam e w fs f, k = el ++ " " ++ fam ∧ ' ' ∉ el.toList ∧
      (do let x ← L.getElement el; x.data.getFactors e w) = .ok fs ∧ SMap.find? fs t = some f ∧ f.energy = l.energy := by
  obtain ⟨comps, geoms, h1, h2, h3⟩ := fluorescence_ok h
  obtain ⟨hcan, -⟩ := calculate_amount (env_consistent hL) (env_regular hL) o reqs hp _ r h3
  obtain ⟨-, -, el, fam, e, w, fs, f, a1, a2, a3, a4, a5⟩ := hcan k i t l ht hl
  exact ⟨el, fam, e, w, fs, f, a1, a2, a3, a4, a5⟩

/-- The mass fraction of an element in a layer (1 when fractions are not to be used). -/
noncomputable def shareOf (pf : String → Outcome (SMap String ℝ)) (fuel : Nat) (L : Library ℝ) (c : Config ℝ R) (o : Options ℝ)
    (x : Layer ℝ) (el : String) : ℝ :=
  if o.useMassFractions then ((compOf pf fuel L c x).find? el).getD 0 else 1

open Classical in
/-- The primary fluorescence of a layer per photon reaching it. -/
noncomputable def bodyOf (pf : String → Outcome (SMap String ℝ)) (fuel : Nat) (L : Library ℝ) (c : Config ℝ R) (o : Options ℝ)
    (k : String) (t : Str) (x : Layer ℝ) (ray : ℝ × ℝ) (req : Request) : ℝ :=
  match excitedLine L req.element ray.1 ray.2 t with
  | none => 0
  | some f =>
    if Asked L req k 0 t ray.1 ∧ 0 < f.factor then
      let s := muOf pf fuel L c x ray.1 / sinIn c + muOf pf fuel L c x f.energy / sinOut c
      (shareOf pf fuel L c o x req.element / sinIn c) * f.rate *
        ((1 - Real.exp (-(s * (x.density * x.thickness)))) / s)
    else 0

theorem asked_any {req : Request} (hq : req.layer < 0) {k : String} {i j : Nat} {t : Str} {e : ℝ} :
    Asked L req k i t e ↔ Asked L req k j t e := by
  unfold Asked
  simp only [hq, true_or]

theorem elementFraction_at {i : Nat} {x : Layer ℝ} (h : c.sample[i]? = some x) (o : Options ℝ) (el : String) :
    elementFraction pf fuel L c o i el = shareOf pf fuel L c o x el := by
  unfold elementFraction shareOf
  rw [sampleComposition_at h]

theorem primaryTerm_at {i : Nat} {x : Layer ℝ} (h : c.sample[i]? = some x) (o : Options ℝ) (k : String) (t : Str)
    (ray : ℝ × ℝ) {req : Request} (hq : req.layer < 0) :
    primaryTerm pf fuel L c o k i t ray req = reaching pf fuel L c i ray.1 * bodyOf pf fuel L c o k t x ray req := by
  unfold primaryTerm bodyOf
  cases excitedLine L req.element ray.1 ray.2 t with
  | none => simp
  | some f =>
    dsimp only
    have hi : i < c.sample.length := (List.getElem?_eq_some_iff.1 h).1
    rw [sampleMu_at h, sampleMu_at h, massThickness_at h, elementFraction_at h]
    by_cases ha : Asked L req k 0 t ray.1 ∧ 0 < f.factor
    · rw [if_pos ⟨(asked_any hq).1 ha.1, ha.2, hi⟩, if_pos ha]
      ring
    · rw [if_neg (fun hh => ha ⟨(asked_any hq).1 hh.1, hh.2.1⟩), if_neg ha, mul_zero]

theorem present_at (hL : SoundLibrary pf fuel L) {srt : List (String × ℝ) → List (String × ℝ)} {o : Options ℝ} {g : Bool}
    {reqs : List Request} (hq : ∀ q ∈ reqs, q.layer < 0) {b : Beam ℝ} {r : Result ℝ}
    (h : fluorescence pf fuel L srt c o g b (reqs.map .ok) = .ok r) (k : String) {i : Nat} {t : Str} (ht : ' ' ∉ t)
    {x : Layer ℝ} (hx : c.sample[i]? = some x) :
    (leaf? r k i t).isSome ↔ ∃ ray ∈ usedBeam c b, ∃ req ∈ reqs, ∃ f,
      excitedLine L req.element (behind pf fuel L c ray).1 (behind pf fuel L c ray).2 t = some f ∧ 0 < f.factor ∧
      Asked L req k 0 t ray.1 ∧ shareOf pf fuel L c o x req.element ≠ 0 := by
  rw [C72_lines pf fuel L srt c o g hL reqs b r h k i t ht]
  have hi : i < c.sample.length := (List.getElem?_eq_some_iff.1 hx).1
  constructor
  · rintro ⟨ray, h1, req, h2, f, h3, h4, h5, h6, h7⟩
    exact ⟨ray, h1, req, h2, f, h3, h4, (asked_any (hq _ h2)).1 h5, by rwa [elementFraction_at hx] at h7⟩
  · rintro ⟨ray, h1, req, h2, f, h3, h4, h5, h7⟩
    exact ⟨ray, h1, req, h2, f, h3, h4, (asked_any (hq _ h2)).1 h5, hi, by rwa [elementFraction_at hx]⟩

/-- What reaches the detector from a layer: photons reaching it, emission, way out, way to the detector. -/
theorem detected_at (hL : SoundLibrary pf fuel L) {srt : List (String × ℝ) → List (String × ℝ)} {o : Options ℝ}
    {reqs : List Request} (hp : ∀ q ∈ reqs, ' ' ∉ q.element.toList) (hq : ∀ q ∈ reqs, q.layer < 0) {b : Beam ℝ} {r : Result ℝ}
    (h : fluorescence pf fuel L srt c o false b (reqs.map .ok) = .ok r) {k : String} {i : Nat} {t : Str} (ht : ' ' ∉ t)
    {x : Layer ℝ} (hx : c.sample[i]? = some x) {l : Leaf ℝ} (hl : leaf? r k i t = some l) :
    detected r k i t = ((usedBeam c b).map (fun ray => (reqs.map (fun req =>
      reaching pf fuel L c i ray.1 * bodyOf pf fuel L c o k t x (behind pf fuel L c ray) req)).sum)).sum *
      (((c.sample.take i).map (fun x => outOf pf fuel L c x l.energy)).prod * restOf pf fuel L c l.energy) := by
  have hi : i < c.sample.length := (List.getElem?_eq_some_iff.1 hx).1
  have h1 := C71_primary pf fuel L srt c o false hL reqs hp b r h k i t ht
  have h2 := (efficiency_take hL hp h ht hi.le hl).1
  unfold detected
  rw [hl] at h1 ⊢
  simp only [Option.map_some, Option.getD_some] at h1 ⊢
  rw [h1, h2]
  congr 2
  apply List.map_congr_left
  intro ray _
  congr 1
  apply List.map_congr_left
  intro req hr
  rw [primaryTerm_at hx o k t _ (hq _ hr)]
  rfl

/-- A layer emits what its upper part emits plus what the part below emits, attenuated in the upper part. -/
theorem body_split (o : Options ℝ) (k : String) (t : Str) (l : Layer ℝ) {t1 t2 : ℝ} (h12 : t1 + t2 = l.thickness)
    (ray : ℝ × ℝ) (req : Request) {ε : ℝ}
    (hε : ∀ f, Asked L req k 0 t ray.1 → excitedLine L req.element ray.1 ray.2 t = some f → f.energy = ε) :
    bodyOf pf fuel L c o k t l ray req = bodyOf pf fuel L c o k t { l with thickness := t1 } ray req +
      Real.exp (-(l.density * t1 * muOf pf fuel L c l ray.1 / sinIn c)) *
      Real.exp (-(l.density * t1 * muOf pf fuel L c l ε / sinOut c)) *
        bodyOf pf fuel L c o k t { l with thickness := t2 } ray req := by
  unfold bodyOf
  cases hex : excitedLine L req.element ray.1 ray.2 t with
  | none => simp
  | some f =>
    dsimp only
    by_cases ha : Asked L req k 0 t ray.1 ∧ 0 < f.factor
    · rw [if_pos ha, if_pos ha, if_pos ha, hε f ha.1 hex]
      have e1 : ∀ e, muOf pf fuel L c { l with thickness := t1 } e = muOf pf fuel L c l e := fun _ => rfl
      have e2 : ∀ e, muOf pf fuel L c { l with thickness := t2 } e = muOf pf fuel L c l e := fun _ => rfl
      have e3 : shareOf pf fuel L c o { l with thickness := t1 } req.element = shareOf pf fuel L c o l req.element := rfl
      have e4 : shareOf pf fuel L c o { l with thickness := t2 } req.element = shareOf pf fuel L c o l req.element := rfl
      rw [e1, e1, e2, e2, e3, e4, ← Real.exp_add, ← h12]
      generalize hs : muOf pf fuel L c l ray.1 / sinIn c + muOf pf fuel L c l ε / sinOut c = s
      have hx : -(l.density * t1 * muOf pf fuel L c l ray.1 / sinIn c) + -(l.density * t1 * muOf pf fuel L c l ε / sinOut c) =
          -(s * (l.density * t1)) := by
        rw [← hs]; ring
      have hy : Real.exp (-(s * (l.density * (t1 + t2)))) =
          Real.exp (-(s * (l.density * t1))) * Real.exp (-(s * (l.density * t2))) := by
        rw [← Real.exp_add]; congr 1; ring
      rw [hx, hy]
      ring
    · rw [if_neg ha, if_neg ha, if_neg ha]
      simp

theorem out_split (ha : 0 < c.alphaOut) (hs : 0 < sinOut c) {l : Layer ℝ} (hf : l.funnyFactor = 1) {t1 t2 : ℝ}
    (h12 : t1 + t2 = l.thickness) {e v v1 v2 : ℝ}
    (h : layerTransmission pf fuel L c l e c.alphaOut (compOf pf fuel L c l) = .ok v)
    (h1 : layerTransmission pf fuel L c { l with thickness := t1 } e c.alphaOut (compOf pf fuel L c l) = .ok v1)
    (h2 : layerTransmission pf fuel L c { l with thickness := t2 } e c.alphaOut (compOf pf fuel L c l) = .ok v2) :
    outOf pf fuel L c l e = outOf pf fuel L c { l with thickness := t1 } e * outOf pf fuel L c { l with thickness := t2 } e := by
  rw [outOf_exp ha hs hf h, outOf_exp ha hs (x := { l with thickness := t1 }) hf h1,
    outOf_exp ha hs (x := { l with thickness := t2 }) hf h2, ← Real.exp_add, ← h12]
  congr 1
  show -(_ * _ * muOf pf fuel L c l e / _) = -(_ * t1 * muOf pf fuel L c l e / _) + -(_ * t2 * muOf pf fuel L c l e / _)
  ring

theorem same_energy {c c' : Config ℝ R} (hL : SoundLibrary pf fuel L) {srt srt' : List (String × ℝ) → List (String × ℝ)}
    {o o' : Options ℝ} {g g' : Bool} {reqs reqs' : List Request} (hp : ∀ q ∈ reqs, ' ' ∉ q.element.toList)
    (hp' : ∀ q ∈ reqs', ' ' ∉ q.element.toList) {b b' : Beam ℝ} {r r' : Result ℝ}
    (h : fluorescence pf fuel L srt c o g b (reqs.map .ok) = .ok r)
    (h' : fluorescence pf fuel L srt' c' o' g' b' (reqs'.map .ok) = .ok r') {k : String} {i i' : Nat} {t : Str} (ht : ' ' ∉ t)
    {l l' : Leaf ℝ} (hl : leaf? r k i t = some l) (hl' : leaf? r' k i' t = some l') : l.energy = l'.energy := by
  obtain ⟨el, fam, e, w, fs, f, a1, a2, a3, a4, a5⟩ := leaf_energy hL hp h ht hl
  obtain ⟨el', fam', e', w', fs', f', b1, b2, b3, b4, b5⟩ := leaf_energy hL hp' h' ht hl'
  obtain ⟨rfl, -⟩ := key_inj a2 b2 (a1.symm.trans b1)
  rw [← a5, ← b5]
  exact excited_energy c hL a3 b3 a4 b4

theorem leaf_excited (hL : SoundLibrary pf fuel L) {srt : List (String × ℝ) → List (String × ℝ)} {o : Options ℝ} {g : Bool}
    {reqs : List Request} (hp : ∀ q ∈ reqs, ' ' ∉ q.element.toList) {b : Beam ℝ} {r : Result ℝ}
    (h : fluorescence pf fuel L srt c o g b (reqs.map .ok) = .ok r) {k : String} {i : Nat} {t : Str} (ht : ' ' ∉ t)
    {l : Leaf ℝ} (hl : leaf? r k i t = some l) {req : Request} (hreq : ' ' ∉ req.element.toList) {e e' w : ℝ} {f : Factor ℝ}
    (ha : Asked L req k 0 t e') (hf : excitedLine L req.element e w t = some f) : f.energy = l.energy := by
  obtain ⟨el, fam, e0, w0, fs, f0, a1, a2, a3, a4, a5⟩ := leaf_energy hL hp h ht hl
  obtain ⟨rfl, -⟩ := key_inj hreq a2 (ha.1.trans a1)
  rw [← a5]
  unfold excitedLine at hf
  split at hf
  · rename_i fs' hfs
    exact excited_energy c hL hfs a3 hf a4
  · cases hf

theorem sum_map_sum_eq {α β : Type} (A : List α) (B : List β) (F G H : α → β → ℝ) (X : ℝ)
    (h : ∀ a ∈ A, ∀ b ∈ B, F a b = G a b + X * H a b) :
    (A.map (fun a => (B.map (F a)).sum)).sum =
      (A.map (fun a => (B.map (G a)).sum)).sum + X * (A.map (fun a => (B.map (H a)).sum)).sum := by
  have hin : ∀ (B : List β) (f g h : β → ℝ), (∀ b ∈ B, f b = g b + X * h b) →
      (B.map f).sum = (B.map g).sum + X * (B.map h).sum := by
    intro B f g h hb
    induction B with
    | nil => simp
    | cons b B ih =>
      simp only [List.map_cons, List.sum_cons]
      rw [ih (fun x hx => hb x (by simp [hx])), hb b (by simp)]
      ring
  induction A with
  | nil => simp
  | cons a A ih =>
    simp only [List.map_cons, List.sum_cons]
    rw [ih (fun x hx => h x (by simp [hx])), hin B _ _ _ (h a (by simp))]
    ring

/-- The sample with the layer after `pre` split in two. -/
def splitAt (c : Config ℝ R) (pre post : List (Layer ℝ)) (l : Layer ℝ) (t1 t2 : ℝ) : Config ℝ R :=
  { c with sample := pre ++ { l with thickness := t1 } :: { l with thickness := t2 } :: post }

end split

section theorems

variable {R : Type} {pf : String → Outcome (SMap String ℝ)} {fuel : Nat} {L : Library ℝ} {c : Config ℝ R}
  {srt : List (String × ℝ) → List (String × ℝ)} {o : Options ℝ} {b : Beam ℝ} {reqs : List Request}

/-- **C157** Describing a layer of the sample as two consecutive layers of the same material, whose thicknesses add up to that of the
layer, does not change the primary fluorescence that reaches the detector: the two parts together give what the layer gives, and
the other layers give what they gave. -/
theorem C157_split (hL : SoundLibrary pf fuel L) (pre post : List (Layer ℝ)) (l : Layer ℝ) (t1 t2 : ℝ)
    (hsample : c.sample = pre ++ l :: post) (h12 : t1 + t2 = l.thickness) (hfun : l.funnyFactor = 1)
    (hout : 0 < c.alphaOut) (hsin : 0 < sinOut c)
    (hp : ∀ q ∈ reqs, ' ' ∉ q.element.toList) (hq : ∀ q ∈ reqs, q.layer < 0) (r r' : Result ℝ)
    (h : fluorescence pf fuel L srt c o false b (reqs.map .ok) = .ok r)
    (h' : fluorescence pf fuel L srt (splitAt c pre post l t1 t2) o false b (reqs.map .ok) = .ok r')
    (k : String) (t : Str) (ht : ' ' ∉ t) :
    (∀ i < pre.length, detected r k i t = detected r' k i t) ∧
    detected r k pre.length t = detected r' k pre.length t + detected r' k (pre.length + 1) t ∧
    (∀ i, pre.length < i → detected r k i t = detected r' k (i + 1) t) := by
  have hc' : (splitAt c pre post l t1 t2).sample = pre ++ { l with thickness := t1 } :: { l with thickness := t2 } :: post := rfl
  -- quantities that do not depend on the sample
  have hmu : ∀ x e, muOf pf fuel L (splitAt c pre post l t1 t2) x e = muOf pf fuel L c x e := fun _ _ => rfl
  have hrest : ∀ e, restOf pf fuel L (splitAt c pre post l t1 t2) e = restOf pf fuel L c e := fun _ => rfl
  have houts : ∀ x e, outOf pf fuel L (splitAt c pre post l t1 t2) x e = outOf pf fuel L c x e := fun _ _ => rfl
  have hbody : ∀ x ray req, bodyOf pf fuel L (splitAt c pre post l t1 t2) o k t x ray req = bodyOf pf fuel L c o k t x ray req :=
    fun _ _ _ => rfl
  have hbeam : usedBeam (splitAt c pre post l t1 t2) b = usedBeam c b := rfl
  have hbehind : ∀ ray, behind pf fuel L (splitAt c pre post l t1 t2) ray = behind pf fuel L c ray := by
    intro ray
    have hff : ∀ (ls : List (Layer ℝ)) e, filterFactor pf fuel L (splitAt c pre post l t1 t2) ls e = filterFactor pf fuel L c ls e := by
      intro ls e
      induction ls with
      | nil => rfl
      | cons x ls ih => rw [filterFactor, filterFactor, ih]; rfl
    unfold behind passing
    rw [hff]
    rfl
  have hsinIn : sinIn (splitAt c pre post l t1 t2) = sinIn c := rfl
  refine ⟨fun i hi => ?_, ?_, fun i hi => ?_⟩
  · -- above
    obtain ⟨x, hx⟩ : ∃ x, pre[i]? = some x := ⟨_, List.getElem?_eq_getElem hi⟩
    have hx1 : c.sample[i]? = some x := by rw [hsample, List.getElem?_append_left hi, hx]
    have hx2 : (splitAt c pre post l t1 t2).sample[i]? = some x := by rw [hc', List.getElem?_append_left hi, hx]
    have hpr := present_at hL hq h' k ht hx2
    simp only [hbehind] at hpr
    have hiff := (present_at hL hq h k ht hx1).trans hpr.symm
    cases hl : leaf? r k i t with
    | none =>
      have : leaf? r' k i t = none := by
        cases hl' : leaf? r' k i t with
        | none => rfl
        | some y => rw [hl, hl'] at hiff; simp at hiff
      unfold detected
      rw [hl, this]
    | some lf =>
      obtain ⟨lf', hl'⟩ : ∃ y, leaf? r' k i t = some y := Option.isSome_iff_exists.1 (hiff.1 (by rw [hl]; rfl))
      rw [detected_at hL hp hq h ht hx1 hl, detected_at hL hp hq h' ht hx2 hl', same_energy hL hp hp h h' ht hl hl', hbeam, hrest]
      have htake : c.sample.take i = (splitAt c pre post l t1 t2).sample.take i := by
        rw [hsample, hc', List.take_append_of_le_length hi.le, List.take_append_of_le_length hi.le]
      have hle1 : i ≤ c.sample.length := ((List.getElem?_eq_some_iff.1 hx1).1).le
      have hle2 : i ≤ (splitAt c pre post l t1 t2).sample.length := ((List.getElem?_eq_some_iff.1 hx2).1).le
      have hreach : ∀ e, reaching pf fuel L (splitAt c pre post l t1 t2) i e = reaching pf fuel L c i e := by
        intro e
        rw [reaching_take hle2, reaching_take hle1, htake]
        rfl
      simp only [hreach, hbody, hbehind, htake, houts]
  · -- the layer
    have hx : c.sample[pre.length]? = some l := by rw [hsample, List.getElem?_append_right le_rfl]; simp
    have hx1 : (splitAt c pre post l t1 t2).sample[pre.length]? = some { l with thickness := t1 } := by
      rw [hc', List.getElem?_append_right le_rfl]; simp
    have hx2 : (splitAt c pre post l t1 t2).sample[pre.length + 1]? = some { l with thickness := t2 } := by
      rw [hc', List.getElem?_append_right (by omega)]; simp
    have hpr1 := present_at hL hq h' k ht hx1
    have hpr2 := present_at hL hq h' k ht hx2
    simp only [hbehind] at hpr1 hpr2
    have hiff1 := (present_at hL hq h k ht hx).trans hpr1.symm
    have hiff2 := (present_at hL hq h k ht hx).trans hpr2.symm
    cases hl : leaf? r k pre.length t with
    | none =>
      have e1 : leaf? r' k pre.length t = none := by
        cases hl' : leaf? r' k pre.length t with
        | none => rfl
        | some y => rw [hl, hl'] at hiff1; simp at hiff1
      have e2 : leaf? r' k (pre.length + 1) t = none := by
        cases hl' : leaf? r' k (pre.length + 1) t with
        | none => rfl
        | some y => rw [hl, hl'] at hiff2; simp at hiff2
      unfold detected
      rw [hl, e1, e2]
      simp
    | some lf =>
      obtain ⟨lf1, hl1⟩ : ∃ y, leaf? r' k pre.length t = some y := Option.isSome_iff_exists.1 (hiff1.1 (by rw [hl]; rfl))
      obtain ⟨lf2, hl2⟩ : ∃ y, leaf? r' k (pre.length + 1) t = some y := Option.isSome_iff_exists.1 (hiff2.1 (by rw [hl]; rfl))
      rw [detected_at hL hp hq h ht hx hl, detected_at hL hp hq h' ht hx1 hl1, detected_at hL hp hq h' ht hx2 hl2,
        ← same_energy hL hp hp h h' ht hl hl1, ← same_energy hL hp hp h h' ht hl hl2, hbeam, hrest]
      have hle : pre.length ≤ c.sample.length := ((List.getElem?_eq_some_iff.1 hx).1).le
      have hle1 : pre.length ≤ (splitAt c pre post l t1 t2).sample.length := ((List.getElem?_eq_some_iff.1 hx1).1).le
      have hle2 : pre.length + 1 ≤ (splitAt c pre post l t1 t2).sample.length := ((List.getElem?_eq_some_iff.1 hx2).1).le
      have htk : c.sample.take pre.length = pre := by rw [hsample]; simp
      have htk1 : (splitAt c pre post l t1 t2).sample.take pre.length = pre := by rw [hc']; simp
      have htk2 : (splitAt c pre post l t1 t2).sample.take (pre.length + 1) = pre ++ [{ l with thickness := t1 }] := by
        rw [hc', List.take_append]; simp
      have hr1 : ∀ e, reaching pf fuel L (splitAt c pre post l t1 t2) pre.length e = reaching pf fuel L c pre.length e := by
        intro e
        rw [reaching_take hle1, reaching_take hle, htk, htk1]
        rfl
      have hr2 : ∀ e, reaching pf fuel L (splitAt c pre post l t1 t2) (pre.length + 1) e =
          reaching pf fuel L c pre.length e * Real.exp (-(l.density * t1 * muOf pf fuel L c l e / sinIn c)) := by
        intro e
        rw [reaching_take hle2, reaching_take hle, htk, htk2, ← Real.exp_add]
        congr 1
        rw [List.map_append, List.sum_append, hsinIn]
        simp only [List.map_cons, List.map_nil, List.sum_cons, List.sum_nil, add_zero]
        show -((pre.map (fun x => x.density * x.thickness * muOf pf fuel L c x e)).sum + l.density * t1 * muOf pf fuel L c l e) / _ = _
        ring
      have hX : outOf pf fuel L c { l with thickness := t1 } lf.energy =
          Real.exp (-(l.density * t1 * muOf pf fuel L c l lf.energy / sinOut c)) := by
        obtain ⟨v, hv⟩ := (efficiency_take hL hp h' ht hle2 hl2).2 { l with thickness := t1 } (by rw [htk2]; simp)
        rw [← same_energy hL hp hp h h' ht hl hl2] at hv
        exact outOf_exp (c := c) hout hsin (x := { l with thickness := t1 }) hfun (e := lf.energy) (v := v) hv
      rw [htk, htk1, htk2]
      simp only [hr1, hr2, hbody, hbehind, houts, List.map_append, List.prod_append, List.map_cons, List.map_nil, List.prod_cons,
        List.prod_nil, mul_one]
      rw [hX, sum_map_sum_eq (usedBeam c b) reqs _ (fun ray req => reaching pf fuel L c pre.length ray.1 *
          bodyOf pf fuel L c o k t { l with thickness := t1 } (behind pf fuel L c ray) req)
        (fun ray req => reaching pf fuel L c pre.length ray.1 * Real.exp (-(l.density * t1 * muOf pf fuel L c l ray.1 / sinIn c)) *
          bodyOf pf fuel L c o k t { l with thickness := t2 } (behind pf fuel L c ray) req)
        (Real.exp (-(l.density * t1 * muOf pf fuel L c l lf.energy / sinOut c)))
        (fun ray _ req hr => by
          rw [body_split o k t l h12 (behind pf fuel L c ray) req (ε := lf.energy)
            (fun f ha hf => leaf_excited hL hp h ht hl (hp _ hr) ha hf)]
          show _ * (_ + Real.exp (-(_ * _ * muOf pf fuel L c l ray.1 / _)) * _ * _) = _
          ring)]
      ring
  · -- below
    obtain ⟨n, rfl⟩ : ∃ n, i = pre.length + 1 + n := ⟨i - (pre.length + 1), by omega⟩
    cases hxo : post[n]? with
    | none =>
      have hlen : post.length ≤ n := List.getElem?_eq_none_iff.1 hxo
      have e1 : leaf? r k (pre.length + 1 + n) t = none := by
        cases hl : leaf? r k (pre.length + 1 + n) t with
        | none => rfl
        | some y =>
          obtain ⟨-, -, -, -, -, -, -, -, hlt, -⟩ :=
            (C72_lines pf fuel L srt c o false hL reqs b r h k _ t ht).1 (by rw [hl]; rfl)
          rw [hsample] at hlt
          simp at hlt
          omega
      have e2 : leaf? r' k (pre.length + 1 + n + 1) t = none := by
        cases hl : leaf? r' k (pre.length + 1 + n + 1) t with
        | none => rfl
        | some y =>
          obtain ⟨-, -, -, -, -, -, -, -, hlt, -⟩ :=
            (C72_lines pf fuel L srt (splitAt c pre post l t1 t2) o false hL reqs b r' h' k _ t ht).1 (by rw [hl]; rfl)
          rw [hc'] at hlt
          simp at hlt
          omega
      unfold detected
      rw [e1, e2]
    | some x =>
      have hx1 : c.sample[pre.length + 1 + n]? = some x := by
        rw [hsample, List.getElem?_append_right (by omega)]
        rw [show pre.length + 1 + n - pre.length = n + 1 by omega, List.getElem?_cons_succ, hxo]
      have hx2 : (splitAt c pre post l t1 t2).sample[pre.length + 1 + n + 1]? = some x := by
        rw [hc', List.getElem?_append_right (by omega)]
        rw [show pre.length + 1 + n + 1 - pre.length = n + 2 by omega, List.getElem?_cons_succ, List.getElem?_cons_succ, hxo]
      have hpr := present_at hL hq h' k ht hx2
      simp only [hbehind] at hpr
      have hiff := (present_at hL hq h k ht hx1).trans hpr.symm
      cases hl : leaf? r k (pre.length + 1 + n) t with
      | none =>
        have : leaf? r' k (pre.length + 1 + n + 1) t = none := by
          cases hl' : leaf? r' k (pre.length + 1 + n + 1) t with
          | none => rfl
          | some y => rw [hl, hl'] at hiff; simp at hiff
        unfold detected
        rw [hl, this]
      | some lf =>
        obtain ⟨lf', hl'⟩ : ∃ y, leaf? r' k (pre.length + 1 + n + 1) t = some y :=
          Option.isSome_iff_exists.1 (hiff.1 (by rw [hl]; rfl))
        have hen := same_energy hL hp hp h h' ht hl hl'
        have hle1 : pre.length + 1 + n ≤ c.sample.length := ((List.getElem?_eq_some_iff.1 hx1).1).le
        have hle2 : pre.length + 1 + n + 1 ≤ (splitAt c pre post l t1 t2).sample.length :=
          ((List.getElem?_eq_some_iff.1 hx2).1).le
        have htk1 : c.sample.take (pre.length + 1 + n) = pre ++ l :: post.take n := by
          rw [hsample, List.take_append, List.take_of_length_le (by omega),
            show pre.length + 1 + n - pre.length = n + 1 by omega, List.take_succ_cons]
        have htk2 : (splitAt c pre post l t1 t2).sample.take (pre.length + 1 + n + 1) =
            pre ++ { l with thickness := t1 } :: { l with thickness := t2 } :: post.take n := by
          rw [hc', List.take_append, List.take_of_length_le (by omega),
            show pre.length + 1 + n + 1 - pre.length = n + 2 by omega, List.take_succ_cons, List.take_succ_cons]
        have hv := (efficiency_take hL hp h ht hle1 hl).2
        have hv' := (efficiency_take hL hp h' ht hle2 hl').2
        obtain ⟨v, hv⟩ := hv l (by rw [htk1]; simp)
        obtain ⟨v1, hv1⟩ := hv' { l with thickness := t1 } (by rw [htk2]; simp)
        obtain ⟨v2, hv2⟩ := hv' { l with thickness := t2 } (by rw [htk2]; simp)
        rw [hen] at hv
        have hprod : outOf pf fuel L c l lf'.energy = outOf pf fuel L c { l with thickness := t1 } lf'.energy *
            outOf pf fuel L c { l with thickness := t2 } lf'.energy := out_split (c := c) hout hsin hfun h12 hv hv1 hv2
        rw [detected_at hL hp hq h ht hx1 hl, detected_at hL hp hq h' ht hx2 hl', hen, hbeam, hrest, htk1, htk2]
        have hreach : ∀ e, reaching pf fuel L (splitAt c pre post l t1 t2) (pre.length + 1 + n + 1) e =
            reaching pf fuel L c (pre.length + 1 + n) e := by
          intro e
          rw [reaching_take hle2, reaching_take hle1, htk1, htk2, hsinIn]
          simp only [List.map_append, List.map_cons, List.sum_append, List.sum_cons]
          congr 3
          show (pre.map (fun x => x.density * x.thickness * muOf pf fuel L c x e)).sum + (l.density * t1 * muOf pf fuel L c l e +
            (l.density * t2 * muOf pf fuel L c l e + ((post.take n).map (fun x => x.density * x.thickness * muOf pf fuel L c x e)).sum)) = _
          rw [← h12]
          ring
        simp only [hreach, hbody, hbehind, houts, List.map_append, List.prod_append, List.map_cons, List.prod_cons]
        rw [hprod]
        ring

end theorems

/-! ## A case: a layer of iron described as a quarter and three quarters of it -/

section case

theorem feComposition' (fuel : Nat) (d : Config ℝ Unit) (hd : d.materials = []) (l : Layer ℝ) (h1 : l.hasMaterial = false)
    (h2 : l.materialName = "Fe") : layerComposition feParser (fuel + 1) feLibrary d l = .ok [("Fe", 1)] := by
  have := feComposition fuel (Layer.new "Fe" 8 1 1) (by simp [feConfig])
  unfold layerComposition at this ⊢
  rw [if_neg (by simp [Layer.new])] at this
  rw [if_neg (by simp [h1]), h2, hd]
  exact this

/-- Any stack of layers of iron is ready for the calculation. -/
theorem feReady' (fuel : Nat) (ls : List (Layer ℝ))
    (hls : ∀ l ∈ ls, l.hasMaterial = false ∧ l.materialName = "Fe" ∧ 0 < l.density * l.thickness) :
    Ready false feParser (fuel + 1) feLibrary { feConfig with sample := ls } false where
  sample := fun l hl => by rw [feComposition' fuel _ rfl l (hls l hl).1 (hls l hl).2.1]; trivial
  sample_nonempty := fun l hl h => by rw [feComposition' fuel _ rfl l (hls l hl).1 (hls l hl).2.1] at h; simp at h
  outer := by simp [feConfig, Config.new]
  thick := by
    intro l hl
    have hl : l ∈ ls := by simpa [feConfig, Config.new] using hl
    exact Or.inr (hls l hl).2.2
  angle := Or.inr (by simp [feConfig, Config.new]; norm_num)
  detectorMu := by
    intro h
    simp [feConfig, Config.new, Config.defaultDetector, Detector.new, Layer.new] at h
  detector := by
    intro h
    simp [feConfig, Config.new, Config.defaultDetector, Detector.new, Layer.new] at h
  reference := fun h => by cases h

/-- The hypotheses of `C157_split` can be met: both calculations return, and the line is in the result. -/
theorem fe_split (fuel : Nat) (srt : List (String × ℝ) → List (String × ℝ)) (hs : Library.SortsByEnergy srt) (limit : ℝ) :
    ∃ r r', fluorescence feParser (fuel + 1) feLibrary srt feConfig ⟨0, true, limit⟩ false Beam.new [.ok ⟨"Fe", "K", -1⟩] = .ok r ∧
      fluorescence feParser (fuel + 1) feLibrary srt (splitAt feConfig [] [] (Layer.new "Fe" 8 1 1) (1 / 4) (3 / 4))
        ⟨0, true, limit⟩ false Beam.new [.ok ⟨"Fe", "K", -1⟩] = .ok r' ∧
      (leaf? r "Fe K" 0 "KL3".toList).isSome ∧
      detected r "Fe K" 0 "KL3".toList = detected r' "Fe K" 0 "KL3".toList + detected r' "Fe K" 1 "KL3".toList := by
  obtain ⟨r, hr⟩ := C77_returns feResponds (feReady' fuel [Layer.new "Fe" 8 1 1] (by simp [Layer.new])) hs ⟨0, true, limit⟩
    (le_refl _) Beam.new [⟨"Fe", "K", -1⟩] (by simp [feKnown])
  obtain ⟨r', hr'⟩ := C77_returns feResponds (feReady' fuel [{ Layer.new "Fe" 8 1 1 with thickness := 1 / 4 },
    { Layer.new "Fe" 8 1 1 with thickness := 3 / 4 }] (by simp [Layer.new])) hs ⟨0, true, limit⟩
    (le_refl _) Beam.new [⟨"Fe", "K", -1⟩] (by simp [feKnown])
  refine ⟨r, r', hr, hr', ?_, ?_⟩
  · rw [C72_lines (hL := feSound _ _) (reqs := [⟨"Fe", "K", -1⟩]) (b := Beam.new) (r := r) (h := hr) (ht := by decide)]
    obtain ⟨fs, f, h1, h2, h3⟩ := fe_factors 1 one_pos
    refine ⟨(10, 1), by simp [usedBeam, feConfig, Beam.new], ⟨"Fe", "K", -1⟩, by simp, f, ?_, h3, ?_, by simp, ?_⟩
    · have hb : behind feParser (fuel + 1) feLibrary { feConfig with sample := [Layer.new "Fe" 8 1 1] } (10, 1) = (10, 1) := by
        simp [behind, passing, feConfig, Config.new, filterFactor, valueOr0]
      rw [hb]
      unfold excitedLine
      have : feLibrary.getElement "Fe" = .ok ⟨"Fe", 56, feElement⟩ := rfl
      rw [this, Outcome.ok_bind, h1]
      exact h2
    · refine ⟨rfl, Or.inl (by decide), by decide, by decide, 7, ?_, by norm_num⟩
      rfl
    · unfold elementFraction
      rw [if_pos rfl, sampleComposition_at (x := Layer.new "Fe" 8 1 1) rfl]
      unfold compOf
      rw [feComposition' fuel _ rfl _ rfl rfl]
      simp
  · exact (C157_split (c := feConfig) (feSound _ _) [] [] (Layer.new "Fe" 8 1 1) (1 / 4) (3 / 4) rfl (by simp [Layer.new]; norm_num)
      rfl (by simp [feConfig, Config.new]) (by
        unfold sinOut
        apply Real.sin_pos_of_pos_of_lt_pi
        · simp only [feConfig, Config.new]; positivity
        · simp only [feConfig, Config.new]
          have := Real.pi_pos
          linarith) (reqs := [⟨"Fe", "K", -1⟩]) (by simp) (by simp) r r' hr hr' "Fe K" "KL3".toList (by decide)).2.1

end case

end Multilayer
end Fisx
