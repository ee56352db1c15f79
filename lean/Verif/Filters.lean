import Verif.Detection
import Verif.FilterOrder

/-!
# C163: a beam filter is a beam with other weights. C164: layers below do not matter for the primary fluorescence
-/

set_option linter.unusedSectionVars false

namespace Fisx
namespace Multilayer

open Xrf (Request)

variable {R : Type} {pf : String → Outcome (SMap String ℝ)} {fuel : Nat} {L : Library ℝ}
  {srt : List (String × ℝ) → List (String × ℝ)} {c c' : Config ℝ R} {o : Options ℝ} {g : Bool} {b : Beam ℝ}

/-- The beam with the weight of each ray multiplied by a factor that depends on its energy. -/
def weaken (v : ℝ → ℝ) (b : Beam ℝ) : Beam ℝ :=
  { b with rays := b.rays.map (fun ray => { ray with weight := ray.weight * v ray.energy }) }

theorem attenuate_map {v : ℝ → ℝ} : ∀ {rays : List (ℝ × ℝ)} {ts : List ℝ}, ts = rays.map (fun r => v r.1) →
    attenuate rays ts = rays.map (fun r => (r.1, r.2 * v r.1))
  | [], _, h => by subst h; rfl
  | r :: rays, _, h => by
    subst h
    unfold attenuate
    rw [List.map_cons, List.zipWith_cons_cons, List.map_cons]
    congr 1
    exact attenuate_map rfl

/-- **C163** A beam filter is a change of the weights: the calculation with the filter gives what the calculation without the filter gives
with the beam whose weights are multiplied by the transmission of the filter. -/
theorem C163_filter (pre post : List (Layer ℝ)) (a : Layer ℝ) (hf : c.beamFilters = pre ++ a :: post) (hb : b.rays ≠ [])
    (reqs : List (Outcome Request)) (r : Result ℝ) (h : fluorescence pf fuel L srt c o g b reqs = .ok r) :
    ∃ v : ℝ → ℝ, (∀ ray ∈ b.rays, layerTransmission pf fuel L c a ray.energy 90 [] = .ok (v ray.energy)) ∧
      fluorescence pf fuel L srt { c with beamFilters := pre ++ post } o g (weaken v b) reqs = .ok r := by
  have hr : Reordered c { c with beamFilters := a :: (pre ++ post) } :=
    ⟨by rw [hf]; exact List.perm_middle, List.Perm.refl _, List.Perm.refl _, List.Perm.refl _, rfl⟩
  replace h := (C160_order hr r).1 h
  let v : ℝ → ℝ := fun e => valueOr0 (layerTransmission pf fuel L c a e 90 [])
  unfold fluorescence at h ⊢
  obtain ⟨comps, h1, h⟩ := Outcome.bind_eq_ok.mp h
  obtain ⟨rays, h2, h⟩ := Outcome.bind_eq_ok.mp h
  obtain ⟨geoms, h3, h⟩ := Outcome.bind_eq_ok.mp h
  replace h2 : filterLoop pf fuel L { c with beamFilters := a :: (pre ++ post) } (a :: (pre ++ post)) (usedBeam c b) = .ok rays := h2
  unfold filterLoop at h2
  obtain ⟨ts, h4, h2⟩ := Outcome.bind_eq_ok.mp h2
  replace h4 : layerTransmissions pf fuel L c a ((usedBeam c b).map Prod.fst) 90 [] = .ok ts := h4
  have h5 := layerTransmissions_each h4
  have hlen : ¬ b.rays.length < 1 := by
    cases hr : b.rays with
    | nil => exact absurd hr hb
    | cons _ _ => simp
  have hu : usedBeam c b = b.rays.map (fun r => (r.energy, r.weight)) := by
    unfold usedBeam
    rw [if_neg hlen]
  have hts : ts = (usedBeam c b).map (fun r => v r.1) ∧
      ∀ ray ∈ usedBeam c b, layerTransmission pf fuel L c a ray.1 90 [] = .ok (v ray.1) := by
    clear h2 h4 hu
    generalize usedBeam c b = us at h5
    induction us generalizing ts with
    | nil => cases h5; exact ⟨rfl, by simp⟩
    | cons x us ih =>
      rw [List.map_cons] at h5
      cases h5 with
      | cons y1 y2 =>
        obtain ⟨i1, i2⟩ := ih _ y2
        have hv : layerTransmission pf fuel L c a x.1 90 [] = .ok (v x.1) := by
          show _ = Outcome.ok (valueOr0 _)
          rw [y1]
          rfl
        refine ⟨?_, ?_⟩
        · rw [List.map_cons, ← i1]
          rw [y1] at hv
          rw [Outcome.ok.inj hv]
        · intro ray hray
          rcases List.mem_cons.1 hray with rfl | hh
          · exact hv
          · exact i2 _ hh
  refine ⟨v, ?_, ?_⟩
  · intro ray hray
    exact hts.2 (ray.energy, ray.weight) (by rw [hu]; exact List.mem_map.2 ⟨ray, hray, rfl⟩)
  · rw [attenuate_map hts.1] at h2
    have hw : usedBeam { c with beamFilters := pre ++ post } (weaken v b) = (usedBeam c b).map (fun r => (r.1, r.2 * v r.1)) := by
      rw [hu]
      unfold usedBeam weaken
      rw [if_neg (by simpa using hlen)]
      simp only [List.map_map]
      rfl
    have hfl : ∀ fs rs, filterLoop pf fuel L { c with beamFilters := a :: (pre ++ post) } fs rs =
        filterLoop pf fuel L { c with beamFilters := pre ++ post } fs rs := by
      intro fs
      induction fs with
      | nil => intro rs; rfl
      | cons x fs ih => intro rs; unfold filterLoop; simp only [ih]; rfl
    have hcomp : ∀ ls, compositions pf fuel L { c with beamFilters := a :: (pre ++ post) } ls =
        compositions pf fuel L { c with beamFilters := pre ++ post } ls := by
      intro ls
      induction ls with
      | nil => rfl
      | cons x ls ih => unfold compositions; rw [ih]; rfl
    have hgeo : ∀ ls i, geometricLoop { c with beamFilters := a :: (pre ++ post) } g i ls =
        geometricLoop { c with beamFilters := pre ++ post } g i ls := by
      intro ls
      induction ls with
      | nil => intro i; rfl
      | cons x ls ih => intro i; unfold geometricLoop; rw [ih]; rfl
    have h1' : compositions pf fuel L { c with beamFilters := pre ++ post } c.sample = .ok comps := by rw [← hcomp]; exact h1
    have h3' : geometricLoop { c with beamFilters := pre ++ post } g 0 c.sample = .ok geoms := by rw [← hgeo]; exact h3
    rw [hfl, ← hw] at h2
    show (do
      let comps ← compositions pf fuel L { c with beamFilters := pre ++ post } c.sample
      let rays ← filterLoop pf fuel L { c with beamFilters := pre ++ post } (pre ++ post)
        (usedBeam { c with beamFilters := pre ++ post } (weaken v b))
      let rays := userFilterLoop c.userBeamFilters rays
      let geoms ← geometricLoop { c with beamFilters := pre ++ post } g 0 c.sample
      calculate (envOf pf fuel L srt { c with beamFilters := pre ++ post } comps geoms) o reqs rays) = .ok r
    rw [h1', Outcome.ok_bind, h2, Outcome.ok_bind]
    dsimp only
    rw [h3', Outcome.ok_bind]
    exact h

/-- **C164** What is below a layer of the sample does not change its primary fluorescence: the lines found in the layer, their energies,
primary excitation and efficiencies are the same whatever layers follow (geometric efficiencies are left out here). -/
theorem C164_below (hL : SoundLibrary pf fuel L) (pre post post' : List (Layer ℝ)) (hs : c.sample = pre ++ post)
    (reqs : List Request) (hp : ∀ q ∈ reqs, ' ' ∉ q.element.toList) (r r' : Result ℝ)
    (h : fluorescence pf fuel L srt c o false b (reqs.map .ok) = .ok r)
    (h' : fluorescence pf fuel L srt { c with sample := pre ++ post' } o false b (reqs.map .ok) = .ok r')
    (k : String) (i : Nat) (hi : i < pre.length) (t : Str) (ht : ' ' ∉ t) :
    (leaf? r k i t = none ∧ leaf? r' k i t = none) ∨
    ∃ l l', leaf? r k i t = some l ∧ leaf? r' k i t = some l' ∧ l'.energy = l.energy ∧ l'.primary = l.primary ∧
      l'.efficiency = l.efficiency ∧ l'.massFraction = l.massFraction := by
  obtain ⟨x, hx⟩ : ∃ x, pre[i]? = some x := ⟨_, List.getElem?_eq_getElem hi⟩
  have hx1 : c.sample[i]? = some x := by rw [hs, List.getElem?_append_left hi, hx]
  have hx2 : ({ c with sample := pre ++ post' } : Config ℝ R).sample[i]? = some x := by
    show (pre ++ post')[i]? = some x
    rw [List.getElem?_append_left hi, hx]
  have hbehind : ∀ ray, behind pf fuel L { c with sample := pre ++ post' } ray = behind pf fuel L c ray := by
    intro ray
    have hff : ∀ (ls : List (Layer ℝ)) e, filterFactor pf fuel L { c with sample := pre ++ post' } ls e = filterFactor pf fuel L c ls e := by
      intro ls e
      induction ls with
      | nil => rfl
      | cons x ls ih => rw [filterFactor, filterFactor, ih]; rfl
    unfold behind passing
    rw [hff]
  have hle1 : i ≤ c.sample.length := ((List.getElem?_eq_some_iff.1 hx1).1).le
  have hle2 : i ≤ ({ c with sample := pre ++ post' } : Config ℝ R).sample.length := ((List.getElem?_eq_some_iff.1 hx2).1).le
  have htake : ({ c with sample := pre ++ post' } : Config ℝ R).sample.take i = c.sample.take i := by
    show (pre ++ post').take i = _
    rw [hs, List.take_append_of_le_length hi.le, List.take_append_of_le_length hi.le]
  have hreach : ∀ e, reaching pf fuel L { c with sample := pre ++ post' } i e = reaching pf fuel L c i e := by
    intro e
    rw [reaching_take hle2, reaching_take hle1, htake]
    rfl
  have hsc : sampleComposition pf fuel L { c with sample := pre ++ post' } i = sampleComposition pf fuel L c i := by
    rw [sampleComposition_at hx1, sampleComposition_at hx2]; rfl
  have hsm : ∀ e, sampleMu pf fuel L { c with sample := pre ++ post' } i e = sampleMu pf fuel L c i e := by
    intro e; rw [sampleMu_at hx1, sampleMu_at hx2]; rfl
  have hmt : massThicknessOf { c with sample := pre ++ post' } i = massThicknessOf c i := by
    rw [massThickness_at hx1, massThickness_at hx2]
  have hfr : ∀ el, elementFraction pf fuel L { c with sample := pre ++ post' } o i el = elementFraction pf fuel L c o i el := by
    intro el; unfold elementFraction; rw [hsc]
  have hterm : ∀ ray req, primaryTerm pf fuel L { c with sample := pre ++ post' } o k i t ray req =
      primaryTerm pf fuel L c o k i t ray req := by
    intro ray req
    unfold primaryTerm
    have hl1 : i < c.sample.length := (List.getElem?_eq_some_iff.1 hx1).1
    have hl2 : i < (pre ++ post').length := (List.getElem?_eq_some_iff.1 hx2).1
    cases excitedLine L req.element ray.1 ray.2 t with
    | none => rfl
    | some f =>
      dsimp only
      rw [hsm, hsm, hmt, hfr, hreach]
      by_cases ha : Asked L req k i t ray.1 ∧ 0 < f.factor
      · rw [if_pos ⟨ha.1, ha.2, hl2⟩, if_pos ⟨ha.1, ha.2, hl1⟩]
        rfl
      · rw [if_neg (fun hh => ha ⟨hh.1, hh.2.1⟩), if_neg (fun hh => ha ⟨hh.1, hh.2.1⟩)]
  have hiff : (leaf? r k i t).isSome ↔ (leaf? r' k i t).isSome := by
    rw [C72_lines pf fuel L srt c o false hL reqs b r h k i t ht, C72_lines pf fuel L srt _ o false hL reqs b r' h' k i t ht]
    have hl1 : i < c.sample.length := (List.getElem?_eq_some_iff.1 hx1).1
    have hl2 : i < (pre ++ post').length := (List.getElem?_eq_some_iff.1 hx2).1
    simp only [hbehind, hfr, hl1, hl2]
    rfl
  cases hl : leaf? r k i t with
  | none =>
    left
    cases hl' : leaf? r' k i t with
    | none => exact ⟨rfl, rfl⟩
    | some y => rw [hl, hl'] at hiff; simp at hiff
  | some l =>
    right
    cases hl' : leaf? r' k i t with
    | none => rw [hl, hl'] at hiff; simp at hiff
    | some l' =>
      have he := same_energy hL hp hp h h' ht hl hl'
      refine ⟨l, l', rfl, rfl, he.symm, ?_, ?_, ?_⟩
      · have h1 := C71_primary pf fuel L srt c o false hL reqs hp b r h k i t ht
        have h2 := C71_primary pf fuel L srt _ o false hL reqs hp b r' h' k i t ht
        rw [hl] at h1
        rw [hl'] at h2
        simp only [Option.map_some, Option.getD_some] at h1 h2
        rw [h1, h2]
        have hbeam : usedBeam { c with sample := pre ++ post' } b = usedBeam c b := rfl
        rw [hbeam]
        congr 1
        apply List.map_congr_left
        intro ray _
        congr 1
        apply List.map_congr_left
        intro req _
        rw [hbehind, hterm]
      · rw [(efficiency_take hL hp h ht hle1 hl).1, (efficiency_take hL hp h' ht hle2 hl').1, htake, he]
        rfl
      · rw [C85_mass_fraction pf fuel L srt c o false hL reqs hp b r h k i t l ht hl,
          C85_mass_fraction pf fuel L srt _ o false hL reqs hp b r' h' k i t l' ht hl', hsc]

end Multilayer
end Fisx
