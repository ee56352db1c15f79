import Verif.MassThickness

/-!
# C173: a thicker layer emits more and hides more
-/

set_option linter.unusedSectionVars false

namespace Fisx
namespace Multilayer

open Xrf (Request)

section spec

/-- The layer with another density and another thickness. -/
def resized (x : Layer ℝ) (d t : ℝ) : Layer ℝ := { x with density := d, thickness := t }

open Classical in
/-- The primary fluorescence of a line of an infinitely thick layer `i`, because of one ray and one request: no thickness appears, except those of
the layers above. -/
noncomputable def thickTerm {R : Type} (pf : String → Outcome (SMap String ℝ)) (fuel : Nat) (L : Library ℝ) (c : Config ℝ R) (o : Options ℝ)
    (k : String) (i : Nat) (t : Str) (ray : ℝ × ℝ) (req : Request) : ℝ :=
  match excitedLine L req.element ray.1 ray.2 t with
  | none => 0
  | some f =>
    if Asked L req k i t ray.1 ∧ 0 < f.factor ∧ i < c.sample.length then
      reaching pf fuel L c i ray.1 * (elementFraction pf fuel L c o i req.element / sinIn c) * f.rate *
        (1 / (sampleMu pf fuel L c i ray.1 / sinIn c + sampleMu pf fuel L c i f.energy / sinOut c))
    else 0

end spec

variable {R : Type} {pf : String → Outcome (SMap String ℝ)} {fuel : Nat} {L : Library ℝ}
  {srt : List (String × ℝ) → List (String × ℝ)} {c : Config ℝ R} {o : Options ℝ} {b : Beam ℝ}

theorem sampleMu_nonneg (hs : Sensible pf fuel L c) (i : Nat) (e : ℝ) : 0 ≤ sampleMu pf fuel L c i e := by
  unfold sampleMu
  split
  · exact le_refl _
  · rename_i l' _
    cases hm : layerMu pf fuel L c l' e (sampleComposition pf fuel L c i) with
    | ok m => exact layerMu_nonneg hs (sampleComposition_nonneg hs i) hm
    | throw _ => exact le_refl _
    | ub _ => exact le_refl _
    | diverge => exact le_refl _

theorem elementFraction_nonneg (hs : Sensible pf fuel L c) (o : Options ℝ) (i : Nat) (el : String) :
    0 ≤ elementFraction pf fuel L c o i el := by
  unfold elementFraction
  split
  · cases hf : (sampleComposition pf fuel L c i).find? el with
    | none => simp
    | some v => exact sampleComposition_nonneg hs i _ (SMap.mem_of_find? hf)
  · norm_num

/-- The integral over the depth grows with the depth. -/
theorem depth_mono {s d d' : ℝ} (hs : 0 ≤ s) (hd : d ≤ d') : (1 - Real.exp (-(s * d))) / s ≤ (1 - Real.exp (-(s * d'))) / s := by
  refine div_le_div_of_nonneg_right ?_ hs
  have := mul_le_mul_of_nonneg_left hd hs
  have := Real.exp_le_exp.2 (neg_le_neg this)
  linarith

theorem depth_limit {s d : ℝ} (hs : 0 ≤ s) : (1 - Real.exp (-(s * d))) / s ≤ 1 / s := by
  refine div_le_div_of_nonneg_right ?_ hs
  have := Real.exp_pos (-(s * d))
  linarith

/-- **C173** (limit) However thick a layer is, it does not emit more primary fluorescence than an infinitely thick one. -/
theorem C173_limit (hL : SoundLibrary pf fuel L) (hs : Sensible pf fuel L c) (hin : 0 < sinIn c) (hout : 0 < sinOut c) {g : Bool}
    (reqs : List Request) (hp : ∀ q ∈ reqs, ' ' ∉ q.element.toList) (r : Result ℝ)
    (h : fluorescence pf fuel L srt c o g b (reqs.map .ok) = .ok r) (k : String) (i : Nat) (t : Str) (ht : ' ' ∉ t)
    (l : Leaf ℝ) (hl : leaf? r k i t = some l) :
    l.primary ≤ ((usedBeam c b).map (fun ray => (reqs.map (thickTerm pf fuel L c o k i t (behind pf fuel L c ray))).sum)).sum := by
  have h1 := C71_primary pf fuel L srt c o g hL reqs hp b r h k i t ht
  rw [hl] at h1
  change l.primary = _ at h1
  rw [h1]
  refine List.sum_le_sum (fun ray _ => List.sum_le_sum (fun req _ => ?_))
  unfold primaryTerm thickTerm
  cases hf : excitedLine L req.element (behind pf fuel L c ray).1 (behind pf fuel L c ray).2 t with
  | none => exact le_refl _
  | some f =>
    dsimp only
    split
    · rename_i hh
      have hr := excitedLine_rate pf fuel L hL hs.data hf hh.2.1
      refine mul_le_mul_of_nonneg_left (depth_limit ?_) (mul_nonneg (mul_nonneg (Real.exp_pos _).le
        (div_nonneg (elementFraction_nonneg hs o i _) hin.le)) hr)
      exact add_nonneg (div_nonneg (sampleMu_nonneg hs _ _) hin.le) (div_nonneg (sampleMu_nonneg hs _ _) hout.le)
    · exact le_refl _

section resize

variable (pre post : List (Layer ℝ)) (x : Layer ℝ) (d' t' : ℝ)

/-- The configuration with the layer resized. -/
def cfg (c : Config ℝ R) : Config ℝ R := { c with sample := pre ++ resized x d' t' :: post }

theorem cfg_at (hs : c.sample = pre ++ x :: post) (j : Nat) :
    (c.sample[j]? = none ∧ (cfg pre post x d' t' c).sample[j]? = none) ∨
    ∃ y y', c.sample[j]? = some y ∧ (cfg pre post x d' t' c).sample[j]? = some y' ∧ muOf pf fuel L (cfg pre post x d' t' c) y' = muOf pf fuel L c y ∧
      compOf pf fuel L (cfg pre post x d' t' c) y' = compOf pf fuel L c y ∧ (j ≠ pre.length → y' = y) ∧
      (j = pre.length → y = x ∧ y' = resized x d' t') := by
  have hc : (cfg pre post x d' t' c).sample = pre ++ resized x d' t' :: post := rfl
  rw [hs, hc]
  rcases lt_trichotomy j pre.length with hj | hj | hj
  · rw [List.getElem?_append_left hj, List.getElem?_append_left hj]
    right
    exact ⟨pre[j], pre[j], List.getElem?_eq_getElem hj, List.getElem?_eq_getElem hj, rfl, rfl, fun _ => rfl, fun h => absurd h hj.ne⟩
  · subst hj
    right
    exact ⟨x, resized x d' t', by simp, by simp, rfl, rfl, fun h => absurd rfl h, fun _ => ⟨rfl, rfl⟩⟩
  · rw [List.getElem?_append_right hj.le, List.getElem?_append_right hj.le]
    obtain ⟨m, hm⟩ : ∃ m, j - pre.length = m + 1 := ⟨j - pre.length - 1, by omega⟩
    rw [hm, List.getElem?_cons_succ, List.getElem?_cons_succ]
    cases hp : post[m]? with
    | none => left; exact ⟨rfl, rfl⟩
    | some y => right; exact ⟨y, y, rfl, rfl, rfl, rfl, fun _ => rfl, fun h => absurd h hj.ne'⟩

theorem cfg_mu (hs : c.sample = pre ++ x :: post) (j : Nat) (e : ℝ) :
    sampleMu pf fuel L (cfg pre post x d' t' c) j e = sampleMu pf fuel L c j e := by
  rcases cfg_at (pf := pf) (fuel := fuel) (L := L) pre post x d' t' hs j with ⟨h1, h2⟩ | ⟨y, y', h1, h2, h3, h4, h5, -⟩
  · unfold sampleMu; rw [h1, h2]
  · rw [sampleMu_at h1, sampleMu_at h2, h3]

theorem cfg_fraction (hs : c.sample = pre ++ x :: post) (o : Options ℝ) (j : Nat) (el : String) :
    elementFraction pf fuel L (cfg pre post x d' t' c) o j el = elementFraction pf fuel L c o j el := by
  unfold elementFraction
  rcases cfg_at (pf := pf) (fuel := fuel) (L := L) pre post x d' t' hs j with ⟨h1, h2⟩ | ⟨y, y', h1, h2, h3, h4, h5, -⟩
  · have : sampleComposition pf fuel L (cfg pre post x d' t' c) j = sampleComposition pf fuel L c j := by
      unfold sampleComposition; rw [h1, h2]
    rw [this]
  · rw [sampleComposition_at h1, sampleComposition_at h2, h4]

theorem cfg_behind (c : Config ℝ R) (ray : ℝ × ℝ) : behind pf fuel L (cfg pre post x d' t' c) ray = behind pf fuel L c ray := by
  have hff : ∀ (ls : List (Layer ℝ)) e, filterFactor pf fuel L (cfg pre post x d' t' c) ls e = filterFactor pf fuel L c ls e := by
    intro ls e
    induction ls with
    | nil => rfl
    | cons x ls ih => rw [filterFactor, filterFactor, ih]; rfl
  unfold behind passing
  have h1 : (cfg pre post x d' t' c).beamFilters = c.beamFilters := rfl
  have h2 : (cfg pre post x d' t' c).userBeamFilters = c.userBeamFilters := rfl
  rw [hff, h1, h2]

/-- The lines of both calculations are the same. -/
theorem cfg_present (hL : SoundLibrary pf fuel L) (hs : c.sample = pre ++ x :: post) (reqs : List Request)
    (r r' : Result ℝ) (h : fluorescence pf fuel L srt c o false b (reqs.map .ok) = .ok r)
    (h' : fluorescence pf fuel L srt (cfg pre post x d' t' c) o false b (reqs.map .ok) = .ok r')
    (k : String) (i : Nat) (t : Str) (ht : ' ' ∉ t) : (leaf? r k i t).isSome ↔ (leaf? r' k i t).isSome := by
  rw [C72_lines pf fuel L srt c o false hL reqs b r h k i t ht, C72_lines pf fuel L srt _ o false hL reqs b r' h' k i t ht]
  have hl : (cfg pre post x d' t' c).sample.length = c.sample.length := by
    rw [hs]; simp [cfg]
  have hb : usedBeam (cfg pre post x d' t' c) b = usedBeam c b := rfl
  simp only [cfg_behind, cfg_fraction pre post x d' t' hs, hl, hb]

/-- The photons reaching a layer. -/
theorem cfg_reaching (hs : c.sample = pre ++ x :: post) (hS : Sensible pf fuel L c) (hin : 0 < sinIn c)
    (hd : x.density * x.thickness ≤ d' * t') (i : Nat) (e : ℝ) :
    reaching pf fuel L (cfg pre post x d' t' c) i e ≤ reaching pf fuel L c i e ∧
    (i ≤ pre.length → reaching pf fuel L (cfg pre post x d' t' c) i e = reaching pf fuel L c i e) := by
  have hm : ∀ j, massThicknessOf c j * sampleMu pf fuel L c j e ≤
        massThicknessOf (cfg pre post x d' t' c) j * sampleMu pf fuel L (cfg pre post x d' t' c) j e ∧
      (j ≠ pre.length → massThicknessOf (cfg pre post x d' t' c) j * sampleMu pf fuel L (cfg pre post x d' t' c) j e =
        massThicknessOf c j * sampleMu pf fuel L c j e) := by
    intro j
    rw [cfg_mu pre post x d' t' hs]
    rcases cfg_at (pf := pf) (fuel := fuel) (L := L) pre post x d' t' hs j with ⟨h1, h2⟩ | ⟨y, y', h1, h2, h3, h4, h5, h6⟩
    · unfold massThicknessOf; rw [h1, h2]; exact ⟨le_refl _, fun _ => rfl⟩
    · rw [massThickness_at h1, massThickness_at h2]
      by_cases hj : j = pre.length
      · obtain ⟨rfl, rfl⟩ := h6 hj
        exact ⟨mul_le_mul_of_nonneg_right hd (sampleMu_nonneg hS j e), fun h => absurd hj h⟩
      · rw [h5 hj]
        exact ⟨le_refl _, fun _ => rfl⟩
  have hsin : sinIn (cfg pre post x d' t' c) = sinIn c := rfl
  unfold reaching
  rw [hsin]
  constructor
  · refine Real.exp_le_exp.2 (div_le_div_of_nonneg_right (neg_le_neg ?_) hin.le)
    exact List.sum_le_sum (fun j _ => (hm j).1)
  · intro hi
    congr 4
    apply List.map_congr_left
    intro j hj
    exact (hm j).2 (by have := List.mem_range.1 hj; omega)

/-- What a layer emits in both calculations. -/
theorem cfg_terms (hL : SoundLibrary pf fuel L) (reqs : List Request)
    (hp : ∀ q ∈ reqs, ' ' ∉ q.element.toList)
    (r r' : Result ℝ) (h : fluorescence pf fuel L srt c o false b (reqs.map .ok) = .ok r)
    (h' : fluorescence pf fuel L srt (cfg pre post x d' t' c) o false b (reqs.map .ok) = .ok r')
    (k : String) (i : Nat) (t : Str) (ht : ' ' ∉ t) (l l' : Leaf ℝ) (hl : leaf? r k i t = some l) (hl' : leaf? r' k i t = some l') :
    l.primary = ((usedBeam c b).map (fun ray => (reqs.map (primaryTerm pf fuel L c o k i t (behind pf fuel L c ray))).sum)).sum ∧
    l'.primary = ((usedBeam c b).map (fun ray =>
      (reqs.map (primaryTerm pf fuel L (cfg pre post x d' t' c) o k i t (behind pf fuel L c ray))).sum)).sum := by
  have h1 := C71_primary pf fuel L srt c o false hL reqs hp b r h k i t ht
  have h2 := C71_primary pf fuel L srt _ o false hL reqs hp b r' h' k i t ht
  rw [hl] at h1
  rw [hl'] at h2
  simp only [Option.map_some, Option.getD_some, cfg_behind] at h1 h2
  exact ⟨h1, h2⟩

theorem both {r r' : Result ℝ} {k : String} {i : Nat} {t : Str} (hiff : (leaf? r k i t).isSome ↔ (leaf? r' k i t).isSome)
    {P : Leaf ℝ → Leaf ℝ → Prop} (hP : ∀ l l', leaf? r k i t = some l → leaf? r' k i t = some l' → P l l') :
    (leaf? r k i t = none ∧ leaf? r' k i t = none) ∨ ∃ l l', leaf? r k i t = some l ∧ leaf? r' k i t = some l' ∧ P l l' := by
  cases hl : leaf? r k i t with
  | none =>
    left
    cases hl' : leaf? r' k i t with
    | none => exact ⟨rfl, rfl⟩
    | some y => rw [hl, hl'] at hiff; simp at hiff
  | some l =>
    right
    cases hl' : leaf? r' k i t with
    | none => rw [hl, hl'] at hiff; simp at hiff
    | some l' => exact ⟨l, l', rfl, rfl, hP l l' hl hl'⟩

/-- **C173** (layer) A layer of the sample made thicker (or denser) shows the same lines and emits no less primary fluorescence, which reaches the
detector with the same efficiency. -/
theorem C173_layer (hL : SoundLibrary pf fuel L) (hS : Sensible pf fuel L c) (hin : 0 < sinIn c) (hout : 0 < sinOut c)
    (hs : c.sample = pre ++ x :: post) (hd : x.density * x.thickness ≤ d' * t') (reqs : List Request)
    (hp : ∀ q ∈ reqs, ' ' ∉ q.element.toList) (r r' : Result ℝ)
    (h : fluorescence pf fuel L srt c o false b (reqs.map .ok) = .ok r)
    (h' : fluorescence pf fuel L srt { c with sample := pre ++ resized x d' t' :: post } o false b (reqs.map .ok) = .ok r')
    (k : String) (t : Str) (ht : ' ' ∉ t) :
    (leaf? r k pre.length t = none ∧ leaf? r' k pre.length t = none) ∨
    ∃ l l', leaf? r k pre.length t = some l ∧ leaf? r' k pre.length t = some l' ∧ l'.energy = l.energy ∧
      l.primary ≤ l'.primary ∧ l'.efficiency = l.efficiency := by
  refine both (cfg_present pre post x d' t' hL hs reqs r r' h h' k _ t ht) (fun l l' hl hl' => ?_)
  have he := same_energy hL hp hp h h' ht hl hl'
  refine ⟨he.symm, ?_, ?_⟩
  · obtain ⟨h1, h2⟩ := cfg_terms pre post x d' t' hL reqs hp r r' h h' k _ t ht l l' hl hl'
    rw [h1, h2]
    refine List.sum_le_sum (fun ray _ => List.sum_le_sum (fun req _ => ?_))
    unfold primaryTerm
    have hlen : (cfg pre post x d' t' c).sample.length = c.sample.length := by
      rw [hs]; simp [cfg]
    have hsi : sinIn (cfg pre post x d' t' c) = sinIn c := rfl
    have hso : sinOut (cfg pre post x d' t' c) = sinOut c := rfl
    have hm1 : massThicknessOf c pre.length = x.density * x.thickness := massThickness_at (by rw [hs]; simp)
    have hm2 : massThicknessOf (cfg pre post x d' t' c) pre.length = d' * t' :=
      massThickness_at (x := resized x d' t') (by simp [cfg])
    rw [hlen, hsi, hso, hm1, hm2]
    cases hf : excitedLine L req.element (behind pf fuel L c ray).1 (behind pf fuel L c ray).2 t with
    | none => exact le_refl _
    | some f =>
      dsimp only
      rw [cfg_mu pre post x d' t' hs, cfg_mu pre post x d' t' hs, cfg_fraction pre post x d' t' hs,
        (cfg_reaching pre post x d' t' hs hS hin hd _ _).2 (le_refl _)]
      split
      · rename_i hh
        have hr := excitedLine_rate pf fuel L hL hS.data hf hh.2.1
        refine mul_le_mul_of_nonneg_left (depth_mono ?_ hd) (mul_nonneg (mul_nonneg (Real.exp_pos _).le
          (div_nonneg (elementFraction_nonneg hS o _ _) hin.le)) hr)
        exact add_nonneg (div_nonneg (sampleMu_nonneg hS _ _) hin.le) (div_nonneg (sampleMu_nonneg hS _ _) hout.le)
      · exact le_refl _
  · have hle1 : pre.length ≤ c.sample.length := by rw [hs]; simp
    have hle2 : pre.length ≤ (cfg pre post x d' t' c).sample.length := by simp [cfg]
    rw [(efficiency_take hL hp h ht hle1 hl).1, (efficiency_take hL hp h' ht hle2 hl').1, he, hs]
    have : (cfg pre post x d' t' c).sample.take pre.length = pre := by simp [cfg]
    show ((cfg pre post x d' t' c).sample.take pre.length |>.map _).prod * _ = _
    rw [this, List.take_left' rfl]
    rfl

/-- The way out through the resized layer. -/
theorem out_mono (hS : Sensible pf fuel L c) (hx : GoodLayer pf fuel L c x) (ha : 0 < Layer.absSin c.alphaOut)
    (hd : x.density * x.thickness ≤ d' * t') {e v v' : ℝ}
    (h : layerTransmission pf fuel L c x e c.alphaOut (compOf pf fuel L c x) = .ok v)
    (h' : layerTransmission pf fuel L c (resized x d' t') e c.alphaOut (compOf pf fuel L c x) = .ok v') : v' ≤ v ∧ 0 < v := by
  obtain ⟨m, h1, -, h3⟩ := C73_layer (pf := pf) (fuel := fuel) (L := L) (c := c) x e c.alphaOut ha _ v h
  obtain ⟨m', h1', -, h3'⟩ := C73_layer (pf := pf) (fuel := fuel) (L := L) (c := c) _ e c.alphaOut ha _ v' h'
  have hmm : m' = m := by
    have : layerMu pf fuel L c (resized x d' t') e (compOf pf fuel L c x) = layerMu pf fuel L c x e (compOf pf fuel L c x) := rfl
    rw [this, h1] at h1'
    exact (Outcome.ok.inj h1').symm
  subst hmm
  have hcomp : ∀ p ∈ compOf pf fuel L c x, 0 ≤ p.2 := by
    unfold compOf
    split
    · rename_i m hm; exact hx.2 m hm
    · simp
  have hmu := layerMu_nonneg hS hcomp h1
  rw [h3, h3']
  unfold beerLambert
  have hf := hx.1
  have e1 := Real.exp_pos (-(x.density * x.thickness / Layer.absSin c.alphaOut * m'.total))
  have e2 : Real.exp (-((resized x d' t').density * (resized x d' t').thickness / Layer.absSin c.alphaOut * m'.total)) ≤
      Real.exp (-(x.density * x.thickness / Layer.absSin c.alphaOut * m'.total)) := by
    refine Real.exp_le_exp.2 (neg_le_neg (mul_le_mul_of_nonneg_right (div_le_div_of_nonneg_right hd ha.le) hmu))
  have hff : (resized x d' t').funnyFactor = x.funnyFactor := rfl
  rw [hff]
  constructor
  · have := mul_le_mul_of_nonneg_left e2 hf.1
    linarith
  · rcases hf.1.eq_or_lt with h0 | h0
    · rw [← h0]; norm_num
    · have := mul_pos h0 e1
      linarith [hf.2]

/-- **C173** (below) The layers below a layer made thicker (or denser) show the same lines, emit no more primary fluorescence and less of it
leaves the sample. -/
theorem C173_below (hL : SoundLibrary pf fuel L) (hS : Sensible pf fuel L c) (hin : 0 < sinIn c) (hout : 0 < sinOut c)
    (ha : 0 < Layer.absSin c.alphaOut)
    (hs : c.sample = pre ++ x :: post) (hd0 : ∀ y ∈ post, 0 ≤ y.density * y.thickness)
    (hd : x.density * x.thickness ≤ d' * t') (reqs : List Request)
    (hp : ∀ q ∈ reqs, ' ' ∉ q.element.toList) (r r' : Result ℝ)
    (h : fluorescence pf fuel L srt c o false b (reqs.map .ok) = .ok r)
    (h' : fluorescence pf fuel L srt { c with sample := pre ++ resized x d' t' :: post } o false b (reqs.map .ok) = .ok r')
    (k : String) (i : Nat) (hi : pre.length < i) (t : Str) (ht : ' ' ∉ t) :
    (leaf? r k i t = none ∧ leaf? r' k i t = none) ∨
    ∃ l l', leaf? r k i t = some l ∧ leaf? r' k i t = some l' ∧ l'.energy = l.energy ∧
      l'.primary ≤ l.primary ∧ l'.efficiency ≤ l.efficiency := by
  refine both (cfg_present pre post x d' t' hL hs reqs r r' h h' k _ t ht) (fun l l' hl hl' => ?_)
  have he := same_energy hL hp hp h h' ht hl hl'
  have hilen : i < c.sample.length := by
    have : (leaf? r k i t).isSome := by rw [hl]; rfl
    rw [C72_lines pf fuel L srt c o false hL reqs b r h k i t ht] at this
    obtain ⟨_, _, _, _, _, _, _, _, hh, _⟩ := this
    exact hh
  refine ⟨he.symm, ?_, ?_⟩
  · obtain ⟨h1, h2⟩ := cfg_terms pre post x d' t' hL reqs hp r r' h h' k _ t ht l l' hl hl'
    rw [h1, h2]
    refine List.sum_le_sum (fun ray _ => List.sum_le_sum (fun req _ => ?_))
    unfold primaryTerm
    have hlen : (cfg pre post x d' t' c).sample.length = c.sample.length := by
      rw [hs]; simp [cfg]
    have hsi : sinIn (cfg pre post x d' t' c) = sinIn c := rfl
    have hso : sinOut (cfg pre post x d' t' c) = sinOut c := rfl
    have hmt : massThicknessOf (cfg pre post x d' t' c) i = massThicknessOf c i ∧ 0 ≤ massThicknessOf c i := by
      rcases cfg_at (pf := pf) (fuel := fuel) (L := L) pre post x d' t' hs i with ⟨h1, h2⟩ | ⟨y, y', h1, h2, -, -, h5, -⟩
      · unfold massThicknessOf; rw [h1, h2]; exact ⟨rfl, le_refl _⟩
      · rw [massThickness_at h1, massThickness_at h2, h5 hi.ne']
        refine ⟨rfl, hd0 _ ?_⟩
        rw [hs, List.getElem?_append_right hi.le] at h1
        obtain ⟨m, hm⟩ : ∃ m, i - pre.length = m + 1 := ⟨i - pre.length - 1, by omega⟩
        rw [hm, List.getElem?_cons_succ] at h1
        exact List.mem_of_getElem? h1
    rw [hlen, hsi, hso, hmt.1]
    cases hf : excitedLine L req.element (behind pf fuel L c ray).1 (behind pf fuel L c ray).2 t with
    | none => exact le_refl _
    | some f =>
      dsimp only
      rw [cfg_mu pre post x d' t' hs, cfg_mu pre post x d' t' hs, cfg_fraction pre post x d' t' hs]
      split
      · rename_i hh
        have hr := excitedLine_rate pf fuel L hL hS.data hf hh.2.1
        have hss := add_nonneg (div_nonneg (sampleMu_nonneg hS i (behind pf fuel L c ray).1) hin.le)
          (div_nonneg (sampleMu_nonneg hS i f.energy) hout.le)
        refine mul_le_mul_of_nonneg_right (mul_le_mul_of_nonneg_right (mul_le_mul_of_nonneg_right
          (cfg_reaching pre post x d' t' hs hS hin hd _ _).1 (div_nonneg (elementFraction_nonneg hS o _ _) hin.le)) hr) ?_
        refine div_nonneg ?_ hss
        have : Real.exp (-((sampleMu pf fuel L c i (behind pf fuel L c ray).1 / sinIn c +
            sampleMu pf fuel L c i f.energy / sinOut c) * massThicknessOf c i)) ≤ 1 := by
          rw [Real.exp_le_one_iff]
          have := mul_nonneg hss hmt.2
          linarith
        linarith
      · exact le_refl _
  · have hle2 : i ≤ (cfg pre post x d' t' c).sample.length := by
      rw [hs] at hilen; simp [cfg] at hilen ⊢; omega
    obtain ⟨e1, f1⟩ := efficiency_take hL hp h ht hilen.le hl
    obtain ⟨e2, f2⟩ := efficiency_take hL hp h' ht hle2 hl'
    obtain ⟨m, hm⟩ : ∃ m, i - pre.length = m + 1 := ⟨i - pre.length - 1, by omega⟩
    have t1 : c.sample.take i = pre ++ x :: post.take m := by
      rw [hs, List.take_append, List.take_of_length_le hi.le, hm, List.take_succ_cons]
    have t2 : (cfg pre post x d' t' c).sample.take i = pre ++ resized x d' t' :: post.take m := by
      show (pre ++ resized x d' t' :: post).take i = _
      rw [List.take_append, List.take_of_length_le hi.le, hm, List.take_succ_cons]
    change l'.efficiency = (((cfg pre post x d' t' c).sample.take i).map (fun x => outOf pf fuel L c x l'.energy)).prod *
      restOf pf fuel L c l'.energy at e2
    change ∀ y ∈ (cfg pre post x d' t' c).sample.take i, _ at f2
    rw [t2, ← he] at e2
    rw [t1] at e1 f1
    rw [t2] at f2
    simp only [List.map_append, List.map_cons, List.prod_append, List.prod_cons] at e1 e2
    obtain ⟨v, hv⟩ := f1 x (by simp)
    obtain ⟨v', hv'⟩ := f2 (resized x d' t') (by simp)
    rw [← he] at hv'
    have hv'' : layerTransmission pf fuel L c (resized x d' t') l.energy c.alphaOut (compOf pf fuel L c x) = .ok v' := hv'
    have hgx : GoodLayer pf fuel L c x := hS.layers x (by rw [hs]; simp)
    obtain ⟨m1, m2⟩ := out_mono x d' t' hS hgx ha hd hv hv''
    have o1 : outOf pf fuel L c x l.energy = v := by unfold outOf; rw [hv]; rfl
    have o2 : outOf pf fuel L c (resized x d' t') l.energy = v' := by
      unfold outOf
      have : compOf pf fuel L c (resized x d' t') = compOf pf fuel L c x := rfl
      rw [this, hv'']; rfl
    rw [o1] at e1
    rw [o2] at e2
    have heff := (C115_efficiency pf fuel L c srt o false hL hS ha reqs hp b r h k i t ht l hl).1
    have hprod : l'.efficiency * v = l.efficiency * v' := by rw [e1, e2]; ring
    have : l'.efficiency * v ≤ l.efficiency * v := by
      rw [hprod]; exact mul_le_mul_of_nonneg_left m1 heff
    exact le_of_mul_le_mul_right this m2

end resize

/-! ## Cases -/

theorem feStack_angles (fs ls as : List (Layer ℝ)) : 0 < sinIn (feStack fs ls as) ∧ 0 < sinOut (feStack fs ls as) ∧
    0 < Layer.absSin (feStack fs ls as).alphaOut := by
  have hq : Real.sin (Real.pi / 4) > 0 := Real.sin_pos_of_pos_of_lt_pi (by positivity) (by linarith [Real.pi_pos])
  have ha : (feStack fs ls as).alphaOut = 45 := by simp [feStack, feConfig, Config.new]
  have hi : (feStack fs ls as).alphaIn = 45 := by simp [feStack, feConfig, Config.new]
  refine ⟨?_, ?_, ?_⟩
  · unfold sinIn
    rw [hi, show (45 : ℝ) * (Real.pi / 180) = Real.pi / 4 by ring]
    exact hq
  · unfold sinOut
    rw [ha, show (45 : ℝ) * (Real.pi / 180) = Real.pi / 4 by ring]
    exact hq
  · unfold Layer.absSin
    rw [ha, abs_of_pos (by norm_num : (0:ℝ) < 45), show (45 : ℝ) * Real.pi / 180 = Real.pi / 4 by ring]
    exact hq

theorem feStack_sensible (fuel : Nat) (fs ls as : List (Layer ℝ))
    (hls : ∀ l ∈ ls ++ fs ++ as, l.hasMaterial = false ∧ l.materialName = "Fe" ∧ 0 ≤ l.funnyFactor ∧ l.funnyFactor ≤ 1) :
    Sensible feParser (fuel + 1) feLibrary (feStack fs ls as) where
  data := (feSensible fuel).data
  fractions := (feSensible fuel).fractions
  layers := by
    intro l hl
    obtain ⟨h1, h2, h3⟩ := hls l hl
    refine ⟨h3, ?_⟩
    intro m hm
    rw [feComposition' fuel _ rfl l h1 h2] at hm
    cases hm
    simp
  detector := (feSensible fuel).detector
  tables := (feSensible fuel).tables

/-- The line of iron in any layer, without filters. -/
theorem feStack_lines (fuel : Nat) {srt : List (String × ℝ) → List (String × ℝ)} {limit : ℝ} {ls as : List (Layer ℝ)}
    {r : Result ℝ} (h : fluorescence feParser (fuel + 1) feLibrary srt (feStack [] ls as) ⟨0, true, limit⟩ false
      Beam.new [.ok ⟨"Fe", "K", -1⟩] = .ok r) (i : Nat) (y : Layer ℝ) (hy : ls[i]? = some y) (hm : y.hasMaterial = false)
    (hn : y.materialName = "Fe") : ∃ l, leaf? r "Fe K" i "KL3".toList = some l := by
  rw [← Option.isSome_iff_exists]
  rw [C72_lines (hL := feSound _ _) (reqs := [⟨"Fe", "K", -1⟩]) (b := Beam.new) (r := r) (h := h) (ht := by decide)]
  obtain ⟨fs, f, h1, h2, h3⟩ := fe_factors 1 one_pos
  refine ⟨(10, 1), by simp [usedBeam, feStack, feConfig, Beam.new], ⟨"Fe", "K", -1⟩, by simp, f, ?_, h3, ?_,
    (List.getElem?_eq_some_iff.1 hy).1, ?_⟩
  · have hb : behind feParser (fuel + 1) feLibrary (feStack [] ls as) (10, 1) = (10, 1) := by
      simp [behind, passing, feStack, feConfig, Config.new, filterFactor, valueOr0]
    rw [hb]
    unfold excitedLine
    have : feLibrary.getElement "Fe" = .ok ⟨"Fe", 56, feElement⟩ := rfl
    rw [this, Outcome.ok_bind, h1]
    exact h2
  · refine ⟨rfl, Or.inl (by decide), by decide, by decide, 7, ?_, by norm_num⟩
    rfl
  · unfold elementFraction
    rw [if_pos rfl, sampleComposition_at (x := y) hy]
    unfold compOf
    rw [feComposition' fuel _ rfl _ hm hn]
    simp

/-- `C173_layer`, `C173_below`, `C173_limit`: two layers of iron, the first made thicker; both calculations return, with both lines. -/
theorem fe_thicker (fuel : Nat) (srt : List (String × ℝ) → List (String × ℝ)) (hs : Library.SortsByEnergy srt) (limit : ℝ) :
    ∃ r r' l l' m m', fluorescence feParser (fuel + 1) feLibrary srt
        (feStack [] [Layer.new "Fe" 8 1 1, Layer.new "Fe" 8 3 1] []) ⟨0, true, limit⟩ false Beam.new [.ok ⟨"Fe", "K", -1⟩] = .ok r ∧
      fluorescence feParser (fuel + 1) feLibrary srt (feStack [] [Layer.new "Fe" 8 2 1, Layer.new "Fe" 8 3 1] []) ⟨0, true, limit⟩ false
        Beam.new [.ok ⟨"Fe", "K", -1⟩] = .ok r' ∧
      leaf? r "Fe K" 0 "KL3".toList = some l ∧ leaf? r' "Fe K" 0 "KL3".toList = some l' ∧
      leaf? r "Fe K" 1 "KL3".toList = some m ∧ leaf? r' "Fe K" 1 "KL3".toList = some m' ∧
      l.primary ≤ l'.primary ∧ m'.primary ≤ m.primary ∧ m'.efficiency ≤ m.efficiency ∧
      l'.primary ≤ ([(10, 1)].map (fun ray => ([⟨"Fe", "K", -1⟩].map (thickTerm feParser (fuel + 1) feLibrary
        (feStack [] [Layer.new "Fe" 8 2 1, Layer.new "Fe" 8 3 1] []) ⟨0, true, limit⟩ "Fe K" 0 "KL3".toList
        (behind feParser (fuel + 1) feLibrary (feStack [] [Layer.new "Fe" 8 2 1, Layer.new "Fe" 8 3 1] []) ray))).sum)).sum := by
  obtain ⟨r, hr⟩ := feStack_returns fuel hs limit Beam.new [] [Layer.new "Fe" 8 1 1, Layer.new "Fe" 8 3 1] [] (by simp [Layer.new])
  obtain ⟨r', hr'⟩ := feStack_returns fuel hs limit Beam.new [] [Layer.new "Fe" 8 2 1, Layer.new "Fe" 8 3 1] [] (by simp [Layer.new])
  obtain ⟨l, hl⟩ := feStack_lines fuel hr 0 _ rfl rfl rfl
  obtain ⟨l', hl'⟩ := feStack_lines fuel hr' 0 _ rfl rfl rfl
  obtain ⟨m, hm⟩ := feStack_lines fuel hr 1 _ rfl rfl rfl
  obtain ⟨m', hm'⟩ := feStack_lines fuel hr' 1 _ rfl rfl rfl
  obtain ⟨a1, a2, a3⟩ := feStack_angles [] [Layer.new "Fe" 8 1 1, Layer.new "Fe" 8 3 1] []
  obtain ⟨a1', a2', -⟩ := feStack_angles [] [Layer.new "Fe" 8 2 1, Layer.new "Fe" 8 3 1] []
  have hS := feStack_sensible fuel [] [Layer.new "Fe" 8 1 1, Layer.new "Fe" 8 3 1] [] (by simp [Layer.new])
  have hS' := feStack_sensible fuel [] [Layer.new "Fe" 8 2 1, Layer.new "Fe" 8 3 1] [] (by simp [Layer.new])
  have h1 := C173_layer [] [Layer.new "Fe" 8 3 1] (Layer.new "Fe" 8 1 1) 8 2 (feSound _ _) hS a1 a2 rfl (by norm_num [Layer.new])
    [⟨"Fe", "K", -1⟩] (by simp) r r' hr hr' "Fe K" "KL3".toList (by decide)
  have h2 := C173_below [] [Layer.new "Fe" 8 3 1] (Layer.new "Fe" 8 1 1) 8 2 (feSound _ _) hS a1 a2 a3 rfl (by norm_num [Layer.new])
    (by norm_num [Layer.new]) [⟨"Fe", "K", -1⟩] (by simp) r r' hr hr' "Fe K" 1 (by decide) "KL3".toList (by decide)
  have h3 := C173_limit (feSound _ _) hS' a1' a2' [⟨"Fe", "K", -1⟩] (by simp) r' hr' "Fe K" 0 "KL3".toList (by decide) l' hl'
  refine ⟨r, r', l, l', m, m', hr, hr', hl, hl', hm, hm', ?_, ?_, ?_, h3⟩
  · rcases h1 with ⟨h4, -⟩ | ⟨n, n', h4, h5, -, h6, -⟩
    · rw [List.length_nil, hl] at h4; cases h4
    · rw [List.length_nil] at h4 h5
      rw [hl] at h4
      rw [hl'] at h5
      cases h4
      cases h5
      exact h6
  all_goals
    rcases h2 with ⟨h4, -⟩ | ⟨n, n', h4, h5, -, h6, h7⟩
    · rw [hm] at h4; cases h4
    · rw [hm] at h4
      rw [hm'] at h5
      cases h4
      cases h5
      assumption

end Multilayer
end Fisx
