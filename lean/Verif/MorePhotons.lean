import Verif.ThicknessMono

/-!
# C174: more photons give more primary fluorescence, a filter never does
-/

set_option linter.unusedSectionVars false

namespace Fisx
namespace Multilayer

open Xrf (Request)

variable {R : Type} {pf : String → Outcome (SMap String ℝ)} {fuel : Nat} {L : Library ℝ}
  {srt : List (String × ℝ) → List (String × ℝ)} {c : Config ℝ R} {o : Options ℝ} {g : Bool} {b b' : Beam ℝ}

/-- A line excited by some photons is excited by more of them, and emits more. -/
theorem excitedLine_more (hL : SoundLibrary pf fuel L) (hs : Library.NonnegData L) {el : String} {e w w' : ℝ} {t : Str} {f' : Factor ℝ}
    (h0 : 0 ≤ w') (hw : w' ≤ w) (h : excitedLine L el e w' t = some f') :
    ∃ f, excitedLine L el e w t = some f ∧ f.energy = f'.energy ∧ (0 < f'.factor → 0 < f.factor ∧ f'.rate ≤ f.rate) := by
  unfold excitedLine at h
  split at h
  · rename_i fs hfs
    obtain ⟨x, h1, hfs⟩ := Outcome.bind_eq_ok.mp hfs
    have hmem := Library.getElement_mem L el x h1
    have hct := (hL.elements x hmem).cached
    rw [(Element.cacheTrue_transparent hct e w').2] at hfs
    simp only [Element.getFactors, Bool.false_eq_true, if_false] at hfs
    unfold Element.computeFactors at hfs
    obtain ⟨vac, v1, hfs⟩ := Outcome.bind_eq_ok.mp hfs
    obtain ⟨lines, v2, hfs⟩ := Outcome.bind_eq_ok.mp hfs
    split at hfs
    · cases hfs; simp [SMap.find?] at h
    · rename_i hne
      obtain ⟨m, hm, hfs⟩ := Outcome.bind_eq_ok.mp hfs
      simp only [Outcome.pure_eq, Outcome.ok.injEq] at hfs
      subst hfs
      unfold excitedLine
      rw [h1, Outcome.ok_bind, (Element.cacheTrue_transparent hct e w).2]
      simp only [Element.getFactors, Bool.false_eq_true, if_false]
      unfold Element.computeFactors
      rw [v1, Outcome.ok_bind, v2, Outcome.ok_bind, if_neg hne, hm, Outcome.ok_bind, Outcome.pure_eq]
      rw [SMap.find?_mapVal lines (fun l => ({ energy := l.2.energy, factor := l.2.rate * w', rate := l.2.rate * w' * m.photoelectric } : Factor ℝ))] at h
      dsimp only
      rw [SMap.find?_mapVal lines (fun l => ({ energy := l.2.energy, factor := l.2.rate * w, rate := l.2.rate * w * m.photoelectric } : Factor ℝ))]
      rw [← (Element.cacheTrue_transparent hct e w).1] at hm
      have hm' := (Element.C114_element expNonneg x.data hct (hs x hmem).1 e m hm).2.2.2.1
      cases hq : lines.find? t with
      | none => rw [hq] at h; cases h
      | some q =>
        rw [hq] at h
        simp only [Option.map_some, Option.some.injEq] at h
        subst h
        refine ⟨_, rfl, rfl, ?_⟩
        intro hpos
        dsimp only at hpos ⊢
        have hr : 0 < q.rate := by
          by_contra hn
          have := mul_nonpos_of_nonpos_of_nonneg (not_lt.1 hn) h0
          linarith
        have h2 := mul_le_mul_of_nonneg_left hw hr.le
        exact ⟨lt_of_lt_of_le hpos h2, mul_le_mul_of_nonneg_right h2 hm'⟩
  · cases h

theorem forall₂_right {α β : Type} {P : α → β → Prop} {as : List α} {bs : List β} (h : List.Forall₂ P as bs) {y : β} (hy : y ∈ bs) :
    ∃ x ∈ as, P x y := by
  induction h with
  | nil => cases hy
  | cons a _ ih =>
    rcases List.mem_cons.1 hy with rfl | hh
    · exact ⟨_, List.mem_cons_self, a⟩
    · obtain ⟨x, x1, x2⟩ := ih hh
      exact ⟨x, List.mem_cons_of_mem _ x1, x2⟩

/-- The same configuration with another beam and other filters. -/
def refiltered (c : Config ℝ R) (bm : Beam ℝ) (fs : List (Layer ℝ)) (us : List (TransmissionTable ℝ)) : Config ℝ R :=
  { c with beam := bm, beamFilters := fs, userBeamFilters := us }

/-- **C174** (photons) Two calculations that differ in the beam and its filters only, whose rays have the same energies and behind the filters
no fewer photons in the first one: each line of the second one is a line of the first one, which has no less primary fluorescence. -/
theorem C174_photons (hL : SoundLibrary pf fuel L) (hs : Sensible pf fuel L c) (hin : 0 < sinIn c) (hout : 0 < sinOut c)
    (hd : ∀ l ∈ c.sample, 0 ≤ l.density * l.thickness) (bm : Beam ℝ) (fs : List (Layer ℝ)) (us : List (TransmissionTable ℝ))
    (hw : List.Forall₂ (fun ray ray' => ray'.1 = ray.1 ∧ 0 ≤ (behind pf fuel L (refiltered c bm fs us) ray').2 ∧
      (behind pf fuel L (refiltered c bm fs us) ray').2 ≤ (behind pf fuel L c ray).2) (usedBeam c b) (usedBeam (refiltered c bm fs us) b'))
    (reqs : List Request) (hp : ∀ q ∈ reqs, ' ' ∉ q.element.toList) (r r' : Result ℝ)
    (h : fluorescence pf fuel L srt c o g b (reqs.map .ok) = .ok r)
    (h' : fluorescence pf fuel L srt (refiltered c bm fs us) o g b' (reqs.map .ok) = .ok r')
    (k : String) (i : Nat) (t : Str) (ht : ' ' ∉ t) (l' : Leaf ℝ) (hl' : leaf? r' k i t = some l') :
    ∃ l, leaf? r k i t = some l ∧ l.energy = l'.energy ∧ l'.primary ≤ l.primary := by
  have hsome : (leaf? r k i t).isSome := by
    have h1 : (leaf? r' k i t).isSome := by rw [hl']; rfl
    rw [C72_lines pf fuel L srt _ o g hL reqs b' r' h' k i t ht] at h1
    rw [C72_lines pf fuel L srt c o g hL reqs b r h k i t ht]
    obtain ⟨ray', hr', req, hq, f, e1, e2, e3, e4, e5⟩ := h1
    obtain ⟨ray, hr, a1, a2, a3⟩ : ∃ ray ∈ usedBeam c b, ray'.1 = ray.1 ∧ 0 ≤ (behind pf fuel L (refiltered c bm fs us) ray').2 ∧
        (behind pf fuel L (refiltered c bm fs us) ray').2 ≤ (behind pf fuel L c ray).2 := by
      exact forall₂_right hw hr'
    obtain ⟨f2, b1, b2, b3⟩ := excitedLine_more hL hs.data a2 a3 e1
    refine ⟨ray, hr, req, hq, f2, ?_, (b3 e2).1, ?_, e4, e5⟩
    · rw [← b1]
      show excitedLine L req.element ray.1 _ t = excitedLine L req.element ray'.1 _ t
      rw [a1]
    · rw [← a1]; exact e3
  obtain ⟨l, hl⟩ := Option.isSome_iff_exists.1 hsome
  refine ⟨l, hl, same_energy hL hp hp h h' ht hl hl', ?_⟩
  have h1 := C71_primary pf fuel L srt c o g hL reqs hp b r h k i t ht
  have h2 := C71_primary pf fuel L srt _ o g hL reqs hp b' r' h' k i t ht
  rw [hl] at h1
  rw [hl'] at h2
  simp only [Option.map_some, Option.getD_some] at h1 h2
  rw [h1, h2]
  clear h1 h2 h h' hl hl' hsome
  have hnn : ∀ s, 0 ≤ s → 0 ≤ (1 - Real.exp (-(s * massThicknessOf c i))) / s := by
    intro s hs0
    refine div_nonneg ?_ hs0
    have hmt : 0 ≤ massThicknessOf c i := by
      unfold massThicknessOf
      split
      · exact le_refl _
      · rename_i l' hl'
        exact hd l' (List.mem_of_getElem? hl')
    have : Real.exp (-(s * massThicknessOf c i)) ≤ 1 := by
      rw [Real.exp_le_one_iff]
      have := mul_nonneg hs0 hmt
      linarith
    linarith
  have key : ∀ ray ray' : ℝ × ℝ, ray'.1 = ray.1 → 0 ≤ (behind pf fuel L (refiltered c bm fs us) ray').2 →
      (behind pf fuel L (refiltered c bm fs us) ray').2 ≤ (behind pf fuel L c ray).2 → ∀ req,
      primaryTerm pf fuel L (refiltered c bm fs us) o k i t (behind pf fuel L (refiltered c bm fs us) ray') req ≤
        primaryTerm pf fuel L c o k i t (behind pf fuel L c ray) req := by
    intro ray ray' a1 a2 a3 req
    have hterm : primaryTerm pf fuel L (refiltered c bm fs us) o k i t (behind pf fuel L (refiltered c bm fs us) ray') req =
      primaryTerm pf fuel L c o k i t (behind pf fuel L (refiltered c bm fs us) ray') req := rfl
    rw [hterm]
    have e1 : behind pf fuel L (refiltered c bm fs us) ray' = (ray.1, (behind pf fuel L (refiltered c bm fs us) ray').2) := by
      rw [← a1]; rfl
    have e2 : behind pf fuel L c ray = (ray.1, (behind pf fuel L c ray).2) := rfl
    rw [e1, e2]
    generalize (behind pf fuel L (refiltered c bm fs us) ray').2 = w' at a2 a3 ⊢
    generalize (behind pf fuel L c ray).2 = w at a3 ⊢
    unfold primaryTerm
    dsimp only
    have hpos : ∀ f : Factor ℝ, 0 ≤ f.rate → 0 ≤ reaching pf fuel L c i ray.1 * (elementFraction pf fuel L c o i req.element / sinIn c) * f.rate *
        ((1 - Real.exp (-((sampleMu pf fuel L c i ray.1 / sinIn c + sampleMu pf fuel L c i f.energy / sinOut c) * massThicknessOf c i))) /
        (sampleMu pf fuel L c i ray.1 / sinIn c + sampleMu pf fuel L c i f.energy / sinOut c)) := by
      intro f hf
      refine mul_nonneg (mul_nonneg (mul_nonneg (Real.exp_pos _).le (div_nonneg (elementFraction_nonneg hs o i _) hin.le)) hf) (hnn _ ?_)
      exact add_nonneg (div_nonneg (sampleMu_nonneg hs _ _) hin.le) (div_nonneg (sampleMu_nonneg hs _ _) hout.le)
    have hright : 0 ≤ primaryTerm pf fuel L c o k i t (ray.1, w) req := by
      unfold primaryTerm
      dsimp only
      split
      · exact le_refl _
      · rename_i f hf
        split
        · rename_i hh
          exact hpos f (excitedLine_rate pf fuel L hL hs.data hf hh.2.1)
        · exact le_refl _
    cases hf' : excitedLine L req.element ray.1 w' t with
    | none => exact hright
    | some f' =>
      dsimp only
      obtain ⟨f, b1, b2, b3⟩ := excitedLine_more hL hs.data a2 a3 hf'
      by_cases ha : Asked L req k i t ray.1 ∧ 0 < f'.factor ∧ i < c.sample.length
      · rw [if_pos ha, b1]
        dsimp only
        rw [if_pos ⟨ha.1, (b3 ha.2.1).1, ha.2.2⟩, b2]
        refine mul_le_mul_of_nonneg_right (mul_le_mul_of_nonneg_left (b3 ha.2.1).2 (mul_nonneg (Real.exp_pos _).le
          (div_nonneg (elementFraction_nonneg hs o i _) hin.le))) (hnn _ ?_)
        exact add_nonneg (div_nonneg (sampleMu_nonneg hs _ _) hin.le) (div_nonneg (sampleMu_nonneg hs _ _) hout.le)
      · rw [if_neg ha]
        exact hright
  generalize usedBeam c b = rays at hw ⊢
  generalize usedBeam (refiltered c bm fs us) b' = rays' at hw ⊢
  induction hw with
  | nil => simp
  | cons a _ ih =>
    rw [List.map_cons, List.map_cons, List.sum_cons, List.sum_cons]
    exact add_le_add (List.sum_le_sum (fun req _ => key _ _ a.1 a.2.1 a.2.2 req)) ih

theorem filterFactor_insert {e : ℝ} {a : Layer ℝ} {post : List (Layer ℝ)} : ∀ {pre : List (Layer ℝ)} {q : ℝ},
    filterFactor pf fuel L c (pre ++ a :: post) e = .ok q →
    ∃ v q0, layerTransmission pf fuel L c a e 90 [] = .ok v ∧ filterFactor pf fuel L c (pre ++ post) e = .ok q0 ∧ q = v * q0
  | [], q, h => by
    rw [List.nil_append] at h ⊢
    unfold filterFactor at h
    obtain ⟨v, h1, h⟩ := Outcome.bind_eq_ok.mp h
    obtain ⟨q0, h2, h⟩ := Outcome.bind_eq_ok.mp h
    cases h
    exact ⟨v, q0, h1, h2, rfl⟩
  | x :: pre, q, h => by
    rw [List.cons_append] at h ⊢
    unfold filterFactor at h
    obtain ⟨u, h1, h⟩ := Outcome.bind_eq_ok.mp h
    obtain ⟨q', h2, h⟩ := Outcome.bind_eq_ok.mp h
    cases h
    obtain ⟨v, q0, h3, h4, rfl⟩ := filterFactor_insert h2
    refine ⟨v, u * q0, h3, ?_, by ring⟩
    unfold filterFactor
    rw [h1, Outcome.ok_bind, h4]
    rfl

/-- Without its beam filters and user tables a sensible configuration is sensible. -/
theorem Sensible.fewer {c c' : Config ℝ R} (h : Sensible pf fuel L c') {fs : List (Layer ℝ)} {us : List (TransmissionTable ℝ)}
    (hc : c' = { c with beamFilters := fs, userBeamFilters := us })
    (h1 : ∀ l ∈ c.beamFilters, l ∈ fs) (h2 : ∀ u ∈ c.userBeamFilters, u ∈ us) : Sensible pf fuel L c := by
  subst hc
  refine ⟨h.data, h.fractions, ?_, h.detector, ?_⟩
  · intro l hl
    refine h.layers l ?_
    simp only [List.mem_append] at hl ⊢
    rcases hl with (hl | hl) | hl
    · exact Or.inl (Or.inl hl)
    · exact Or.inl (Or.inr (h1 _ hl))
    · exact Or.inr hl
  · intro u hu
    refine h.tables u ?_
    simp only [List.mem_append] at hu ⊢
    rcases hu with hu | hu
    · exact Or.inl (h2 _ hu)
    · exact Or.inr hu

/-- **C174** (filter) A beam filter put anywhere among the others adds no line and does not increase the primary fluorescence of any line. -/
theorem C174_filter (hL : SoundLibrary pf fuel L) (pre post : List (Layer ℝ)) (a : Layer ℝ) (hf : c.beamFilters = pre ++ post)
    (hs : Sensible pf fuel L { c with beamFilters := pre ++ a :: post }) (hin : 0 < sinIn c) (hout : 0 < sinOut c)
    (hd : ∀ l ∈ c.sample, 0 ≤ l.density * l.thickness) (hw : ∀ ray ∈ usedBeam c b, 0 ≤ ray.2)
    (reqs : List Request) (hp : ∀ q ∈ reqs, ' ' ∉ q.element.toList) (r r' : Result ℝ)
    (h : fluorescence pf fuel L srt c o g b (reqs.map .ok) = .ok r)
    (h' : fluorescence pf fuel L srt { c with beamFilters := pre ++ a :: post } o g b (reqs.map .ok) = .ok r')
    (k : String) (i : Nat) (t : Str) (ht : ' ' ∉ t) (l' : Leaf ℝ) (hl' : leaf? r' k i t = some l') :
    ∃ l, leaf? r k i t = some l ∧ l.energy = l'.energy ∧ l'.primary ≤ l.primary := by
  have hs0 : Sensible pf fuel L c := hs.fewer (fs := pre ++ a :: post) (us := c.userBeamFilters) rfl
    (by intro l hl; rw [hf] at hl; simp only [List.mem_append, List.mem_cons] at hl ⊢; tauto) (fun _ h => h)
  refine C174_photons hL hs0 hin hout hd c.beam (pre ++ a :: post) c.userBeamFilters ?_ reqs hp r r' h h' k i t ht l' hl'
  have hub : usedBeam (refiltered c c.beam (pre ++ a :: post) c.userBeamFilters) b = usedBeam c b := rfl
  rw [hub, List.forall₂_same]
  intro ray hray
  have hpass := C115_beam hs0 ray.1
  have hpass' := C115_beam hs ray.1
  change 0 ≤ passing pf fuel L (refiltered c c.beam (pre ++ a :: post) c.userBeamFilters) ray.1 ∧
    passing pf fuel L (refiltered c c.beam (pre ++ a :: post) c.userBeamFilters) ray.1 ≤ 1 at hpass'
  refine ⟨rfl, mul_nonneg (hw ray hray) hpass'.1, mul_le_mul_of_nonneg_left ?_ (hw ray hray)⟩
  have hff : ∀ (ls : List (Layer ℝ)) e, filterFactor pf fuel L (refiltered c c.beam (pre ++ a :: post) c.userBeamFilters) ls e =
      filterFactor pf fuel L c ls e := by
    intro ls e
    induction ls with
    | nil => rfl
    | cons x ls ih => rw [filterFactor, filterFactor, ih]; rfl
  have hux : ∀ v ∈ c.userBeamFilters.map (fun t => t.getTransmission ray.1), 0 ≤ v ∧ v ≤ 1 := by
    intro v hv
    obtain ⟨t, ht, rfl⟩ := List.mem_map.1 hv
    exact table_range (hs0.tables t (by simp [ht])) ray.1
  have hu := prod_range hux
  show valueOr0 (filterFactor pf fuel L (refiltered c c.beam (pre ++ a :: post) c.userBeamFilters) (pre ++ a :: post) ray.1) * _ ≤ passing pf fuel L c ray.1
  rw [hff]
  cases hq : filterFactor pf fuel L c (pre ++ a :: post) ray.1 with
  | ok q =>
    obtain ⟨v, q0, e1, e2, rfl⟩ := filterFactor_insert hq
    have ha := hs.layers a (by simp)
    have h90 : 0 < Layer.absSin 90 := by rw [absSin_90]; norm_num
    have hv := layerTransmission_range hs0 ha h90 (by simp) e1
    unfold passing at hpass ⊢
    rw [hf, e2] at hpass ⊢
    change v * q0 * (c.userBeamFilters.map (fun t => t.getTransmission ray.1)).prod ≤
      q0 * (c.userBeamFilters.map (fun t => t.getTransmission ray.1)).prod
    have := mul_le_of_le_one_left hpass.1 hv.2
    change v * (q0 * _) ≤ q0 * _ at this
    rw [mul_assoc]
    exact this
  | throw _ => change 0 * _ ≤ _; rw [zero_mul]; exact hpass.1
  | ub _ => change 0 * _ ≤ _; rw [zero_mul]; exact hpass.1
  | diverge => change 0 * _ ≤ _; rw [zero_mul]; exact hpass.1

/-- **C174** (table) Nor does a transmission table given by the user. -/
theorem C174_table (hL : SoundLibrary pf fuel L) (pre post : List (TransmissionTable ℝ)) (a : TransmissionTable ℝ)
    (hf : c.userBeamFilters = pre ++ post)
    (hs : Sensible pf fuel L { c with userBeamFilters := pre ++ a :: post }) (hin : 0 < sinIn c) (hout : 0 < sinOut c)
    (hd : ∀ l ∈ c.sample, 0 ≤ l.density * l.thickness) (hw : ∀ ray ∈ usedBeam c b, 0 ≤ ray.2)
    (reqs : List Request) (hp : ∀ q ∈ reqs, ' ' ∉ q.element.toList) (r r' : Result ℝ)
    (h : fluorescence pf fuel L srt c o g b (reqs.map .ok) = .ok r)
    (h' : fluorescence pf fuel L srt { c with userBeamFilters := pre ++ a :: post } o g b (reqs.map .ok) = .ok r')
    (k : String) (i : Nat) (t : Str) (ht : ' ' ∉ t) (l' : Leaf ℝ) (hl' : leaf? r' k i t = some l') :
    ∃ l, leaf? r k i t = some l ∧ l.energy = l'.energy ∧ l'.primary ≤ l.primary := by
  have hs0 : Sensible pf fuel L c := hs.fewer (fs := c.beamFilters) (us := pre ++ a :: post) rfl (fun _ h => h)
    (by intro l hl; rw [hf] at hl; simp only [List.mem_append, List.mem_cons] at hl ⊢; tauto)
  refine C174_photons hL hs0 hin hout hd c.beam c.beamFilters (pre ++ a :: post) ?_ reqs hp r r' h h' k i t ht l' hl'
  have hub : usedBeam (refiltered c c.beam c.beamFilters (pre ++ a :: post)) b = usedBeam c b := rfl
  rw [hub, List.forall₂_same]
  intro ray hray
  have hpass := C115_beam hs0 ray.1
  have hpass' := C115_beam hs ray.1
  change 0 ≤ passing pf fuel L (refiltered c c.beam c.beamFilters (pre ++ a :: post)) ray.1 ∧
    passing pf fuel L (refiltered c c.beam c.beamFilters (pre ++ a :: post)) ray.1 ≤ 1 at hpass'
  refine ⟨rfl, mul_nonneg (hw ray hray) hpass'.1, mul_le_mul_of_nonneg_left ?_ (hw ray hray)⟩
  have hff : ∀ (ls : List (Layer ℝ)) e, filterFactor pf fuel L (refiltered c c.beam c.beamFilters (pre ++ a :: post)) ls e =
      filterFactor pf fuel L c ls e := by
    intro ls e
    induction ls with
    | nil => rfl
    | cons x ls ih => rw [filterFactor, filterFactor, ih]; rfl
  have ha := table_range (hs.tables a (by simp)) ray.1
  unfold passing at hpass ⊢
  show valueOr0 (filterFactor pf fuel L (refiltered c c.beam c.beamFilters (pre ++ a :: post)) c.beamFilters ray.1) *
    ((pre ++ a :: post).map (fun t => t.getTransmission ray.1)).prod ≤ _
  rw [hff]
  rw [hf] at hpass ⊢
  simp only [List.map_append, List.map_cons, List.prod_append, List.prod_cons] at hpass ⊢
  have := mul_le_of_le_one_left hpass.1 ha.2
  refine le_trans (le_of_eq ?_) this
  ring

/-! ## Cases -/

/-- `C174_filter`: iron behind a filter of iron; both calculations return, with the line. -/
theorem fe_filtered (fuel : Nat) (srt : List (String × ℝ) → List (String × ℝ)) (hs : Library.SortsByEnergy srt) (limit : ℝ) :
    ∃ r r' l l', fluorescence feParser (fuel + 1) feLibrary srt (feStack [] [Layer.new "Fe" 8 1 1] []) ⟨0, true, limit⟩ false feBeam
        [.ok ⟨"Fe", "K", -1⟩] = .ok r ∧
      fluorescence feParser (fuel + 1) feLibrary srt (feStack [Layer.new "Fe" 8 2 1] [Layer.new "Fe" 8 1 1] []) ⟨0, true, limit⟩ false
        feBeam [.ok ⟨"Fe", "K", -1⟩] = .ok r' ∧
      leaf? r' "Fe K" 0 "KL3".toList = some l' ∧ leaf? r "Fe K" 0 "KL3".toList = some l ∧ l.energy = l'.energy ∧ l'.primary ≤ l.primary := by
  obtain ⟨r, hr⟩ := feStack_returns fuel hs limit feBeam [] [Layer.new "Fe" 8 1 1] [] (by simp [Layer.new])
  obtain ⟨r', hr'⟩ := feStack_returns fuel hs limit feBeam [Layer.new "Fe" 8 2 1] [Layer.new "Fe" 8 1 1] [] (by simp [Layer.new])
  obtain ⟨a1, a2, -⟩ := feStack_angles [] [Layer.new "Fe" 8 1 1] []
  have hS := feStack_sensible fuel [Layer.new "Fe" 8 2 1] [Layer.new "Fe" 8 1 1] [] (by simp [Layer.new])
  obtain ⟨v, hv, -⟩ := C163_filter (c := feStack [Layer.new "Fe" 8 2 1] [Layer.new "Fe" 8 1 1] []) [] [] (Layer.new "Fe" 8 2 1) rfl
    (by simp [feBeam]) [.ok ⟨"Fe", "K", -1⟩] r' hr'
  have hv := hv ⟨10, 1, 1, 0⟩ (by simp [feBeam])
  dsimp only at hv
  have h90 : 0 < Layer.absSin 90 := by rw [absSin_90]; norm_num
  have hpos : 0 < v 10 := by
    obtain ⟨m, -, -, h3⟩ := C73_layer (pf := feParser) (fuel := fuel + 1) (L := feLibrary) _ _ 10 90 h90 _ _ hv
    rw [h3]
    have := Real.exp_pos (-((Layer.new "Fe" (8 : ℝ) 2 1).density * (Layer.new "Fe" (8 : ℝ) 2 1).thickness / Layer.absSin 90 * m.total))
    unfold beerLambert
    have hf : (Layer.new "Fe" (8 : ℝ) 2 1).funnyFactor = 1 := by simp [Layer.new]
    rw [hf]
    linarith
  have hline : ∃ l', leaf? r' "Fe K" 0 "KL3".toList = some l' := by
    rw [← Option.isSome_iff_exists]
    rw [C72_lines (hL := feSound _ _) (reqs := [⟨"Fe", "K", -1⟩]) (b := feBeam) (r := r') (h := hr') (ht := by decide)]
    obtain ⟨fs, f, h1, h2, h3⟩ := fe_factors (1 * (v 10 * 1 * 1)) (by linarith)
    refine ⟨(10, 1), by simp [usedBeam, feBeam], ⟨"Fe", "K", -1⟩, by simp, f, ?_, h3, ?_, by simp [feStack], ?_⟩
    · have hb : behind feParser (fuel + 1) feLibrary (feStack [Layer.new "Fe" 8 2 1] [Layer.new "Fe" 8 1 1] []) (10, 1) =
          (10, 1 * (v 10 * 1 * 1)) := by
        unfold behind passing
        have e1 : (feStack [Layer.new "Fe" 8 2 1] [Layer.new "Fe" 8 1 1] []).beamFilters = [Layer.new "Fe" 8 2 1] := rfl
        have e2 : (feStack [Layer.new "Fe" 8 2 1] [Layer.new "Fe" 8 1 1] []).userBeamFilters = [] := rfl
        rw [e1, e2]
        unfold filterFactor
        rw [hv]
        rfl
      rw [hb]
      unfold excitedLine
      have : feLibrary.getElement "Fe" = .ok ⟨"Fe", 56, feElement⟩ := rfl
      rw [this, Outcome.ok_bind, h1]
      exact h2
    · refine ⟨rfl, Or.inl (by decide), by decide, by decide, 7, ?_, by norm_num⟩
      rfl
    · unfold elementFraction
      rw [if_pos rfl, sampleComposition_at (x := Layer.new "Fe" 8 1 1) rfl]
      unfold compOf
      rw [feComposition' fuel _ rfl _ rfl rfl]
      simp
  obtain ⟨l', hl'⟩ := hline
  obtain ⟨l, h1, h2, h3⟩ := C174_filter (c := feStack [] [Layer.new "Fe" 8 1 1] []) (feSound _ _) [] [] (Layer.new "Fe" 8 2 1) rfl hS a1 a2
    (by simp [feStack, Layer.new]) (by simp [usedBeam, feBeam]) [⟨"Fe", "K", -1⟩] (by simp) r r' hr hr' "Fe K" 0 "KL3".toList (by decide) l' hl'
  exact ⟨r, r', l, l', hr, hr', hl', h1, h2, h3⟩

/-- A table with one row: half of the photons of 10 keV pass. -/
noncomputable def halfTable : TransmissionTable ℝ := { name := "half", comment := "", table := [(10, 1 / 2)] }

/-- Iron behind that table. -/
noncomputable def feHalf : Config ℝ Unit := { feStack [] [Layer.new "Fe" 8 1 1] [] with userBeamFilters := [halfTable] }

/-- `C174_table`: both calculations return, with the line. -/
theorem fe_table (fuel : Nat) (srt : List (String × ℝ) → List (String × ℝ)) (hs : Library.SortsByEnergy srt) (limit : ℝ) :
    ∃ r r' l l', fluorescence feParser (fuel + 1) feLibrary srt (feStack [] [Layer.new "Fe" 8 1 1] []) ⟨0, true, limit⟩ false feBeam
        [.ok ⟨"Fe", "K", -1⟩] = .ok r ∧
      fluorescence feParser (fuel + 1) feLibrary srt feHalf ⟨0, true, limit⟩ false feBeam [.ok ⟨"Fe", "K", -1⟩] = .ok r' ∧
      leaf? r' "Fe K" 0 "KL3".toList = some l' ∧ leaf? r "Fe K" 0 "KL3".toList = some l ∧ l.energy = l'.energy ∧ l'.primary ≤ l.primary := by
  obtain ⟨r, hr⟩ := feStack_returns fuel hs limit feBeam [] [Layer.new "Fe" 8 1 1] [] (by simp [Layer.new])
  have hq := feStackReady fuel [] [Layer.new "Fe" 8 1 1] [] (by simp [Layer.new])
  have hready : Ready false feParser (fuel + 1) feLibrary feHalf false :=
    ⟨hq.sample, hq.sample_nonempty, hq.outer, hq.thick, hq.angle, hq.detectorMu, hq.detector, hq.reference⟩
  obtain ⟨r', hr'⟩ := C77_returns feResponds hready hs ⟨0, true, limit⟩ (le_refl _) feBeam [⟨"Fe", "K", -1⟩] (by simp [feKnown])
  obtain ⟨a1, a2, -⟩ := feStack_angles [] [Layer.new "Fe" 8 1 1] []
  have hS0 := feStack_sensible fuel [] [Layer.new "Fe" 8 1 1] [] (by simp [Layer.new])
  have hS : Sensible feParser (fuel + 1) feLibrary feHalf := by
    refine ⟨hS0.data, hS0.fractions, hS0.layers, hS0.detector, ?_⟩
    intro t ht
    have : t = halfTable := by simpa [feHalf, feStack, feConfig, Config.new] using ht
    subst this
    refine ⟨by simp [halfTable, SMap.Sorted], ?_⟩
    intro p hp
    have : p = (10, 1 / 2) := by simpa [halfTable] using hp
    subst this
    norm_num
  have htr : halfTable.getTransmission 10 = 1 / 2 := by
    simp [halfTable, TransmissionTable.getTransmission, TransmissionTable.upperBound]
  have hline : ∃ l', leaf? r' "Fe K" 0 "KL3".toList = some l' := by
    rw [← Option.isSome_iff_exists]
    rw [C72_lines (hL := feSound _ _) (reqs := [⟨"Fe", "K", -1⟩]) (b := feBeam) (r := r') (h := hr') (ht := by decide)]
    obtain ⟨fs, f, h1, h2, h3⟩ := fe_factors (1 / 2) (by norm_num)
    refine ⟨(10, 1), by simp [usedBeam, feBeam], ⟨"Fe", "K", -1⟩, by simp, f, ?_, h3, ?_, by simp [feHalf, feStack], ?_⟩
    · have hb : behind feParser (fuel + 1) feLibrary feHalf (10, 1) = (10, 1 / 2) := by
        simp [behind, passing, feHalf, feStack, feConfig, Config.new, filterFactor, valueOr0, htr]
      rw [hb]
      unfold excitedLine
      have : feLibrary.getElement "Fe" = .ok ⟨"Fe", 56, feElement⟩ := rfl
      rw [this, Outcome.ok_bind, h1]
      exact h2
    · refine ⟨rfl, Or.inl (by decide), by decide, by decide, 7, ?_, by norm_num⟩
      rfl
    · unfold elementFraction
      rw [if_pos rfl, sampleComposition_at (x := Layer.new "Fe" 8 1 1) rfl]
      unfold compOf
      rw [feComposition' fuel _ rfl _ rfl rfl]
      simp
  obtain ⟨l', hl'⟩ := hline
  obtain ⟨l, h1, h2, h3⟩ := C174_table (c := feStack [] [Layer.new "Fe" 8 1 1] []) (feSound _ _) [] [] halfTable rfl hS a1 a2
    (by simp [feStack, Layer.new]) (by simp [usedBeam, feBeam]) [⟨"Fe", "K", -1⟩] (by simp) r r' hr hr' "Fe K" 0 "KL3".toList (by decide) l' hl'
  exact ⟨r, r', l, l', hr, hr', hl', h1, h2, h3⟩

end Multilayer
end Fisx
