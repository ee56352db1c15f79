import Verif.OptionEffects

/-!
# C178: the calculation limit only selects the lines that are sources of secondary excitation
-/

set_option linter.unusedSectionVars false

namespace Fisx
namespace Multilayer

open Xrf (Request)

variable {R : Type} {pf : String → Outcome (SMap String ℝ)} {fuel : Nat} {L : Library ℝ}
  {srt : List (String × ℝ) → List (String × ℝ)} {c : Config ℝ R} {o o' : Options ℝ} {g : Bool} {b : Beam ℝ}

/-- A line with this rate (per photon, in the pure element) is considered with this limit; without a positive limit all are. -/
def WithinLimit (limit rate : ℝ) : Prop := 0 < limit → limit ≤ rate

theorem filter_sum_congr {α : Type} {p q : α → Bool} {f : α → ℝ} : ∀ {l : List α}, (∀ a ∈ l, f a = 0 ∨ p a = q a) →
    ((l.filter p).map f).sum = ((l.filter q).map f).sum
  | [], _ => rfl
  | a :: l, h => by
    have ih := filter_sum_congr (l := l) (fun x hx => h x (List.mem_cons_of_mem _ hx))
    rw [List.filter_cons, List.filter_cons]
    rcases h a (List.mem_cons_self ..) with h0 | h0
    · split <;> split <;> simp [h0, ih]
    · rw [h0]
      split <;> simp [ih]

theorem flatMap_sum_congr {α β : Type} {f f' : α → List β} {v : β → ℝ} : ∀ {l : List α},
    (∀ a ∈ l, ((f a).map v).sum = ((f' a).map v).sum) → ((l.flatMap f).map v).sum = ((l.flatMap f').map v).sum
  | [], _ => rfl
  | a :: l, h => by
    have ih := flatMap_sum_congr (l := l) (fun x hx => h x (List.mem_cons_of_mem _ hx))
    have h0 := h a (List.mem_cons_self ..)
    rw [List.flatMap_cons, List.flatMap_cons, List.map_append, List.map_append, List.sum_append, List.sum_append, ih, h0]

theorem sources_congr (v : Str × ℝ × ℝ → ℝ) (j : Nat) (ray : ℝ × ℝ)
    (h : ∀ (el : Str) (t : Str) (f : Factor ℝ) (x : ℝ), (t, f) ∈ excitedLines L (String.ofList el) ray.1 → ' ' ∉ el →
      v (el ++ ' ' :: t, f.energy, x) = 0 ∨ (WithinLimit o.limit f.rate ↔ WithinLimit o'.limit f.rate)) :
    ((sources pf fuel L srt c o j ray).map v).sum = ((sources pf fuel L srt c o' j ray).map v).sum := by
  unfold sources
  rw [List.map_append, List.map_append, List.sum_append, List.sum_append]
  refine congrArg (fun x => x + _) ?_
  refine flatMap_sum_congr (fun fam _ => ?_)
  rw [List.map_map, List.map_map]
  refine filter_sum_congr (fun p hp => ?_)
  have hsp : ' ' ∉ familyElement fam.1 := by
    intro hm
    have := List.mem_takeWhile_imp hm
    simp at this
  rcases h _ p.1 p.2 (ray.2 * reaching pf fuel L c j ray.1 *
    (((sampleComposition pf fuel L c j).find? (String.ofList (familyElement fam.1))).getD 0) * p.2.rate) hp hsp with h0 | h0
  · exact Or.inl h0
  · right
    unfold WithinLimit at h0
    unfold IsSource
    rw [decide_eq_decide, h0]

theorem contribution_options (hm : o'.useMassFractions = o.useMassFractions) (el : String) (thr : ℝ) (i j : Nat) (t : Str)
    (eT e : ℝ) (s : Str × ℝ × ℝ) :
    contribution pf fuel L c o' el thr i j t eT e s = contribution pf fuel L c o el thr i j t eT e s := by
  have hfr : elementFraction pf fuel L c o' i el = elementFraction pf fuel L c o i el := by
    unfold elementFraction
    rw [hm]
  unfold contribution
  rw [hfr]

theorem secondaryTerm_congr (hm : o'.useMassFractions = o.useMassFractions) (hs : 0 < o'.secondary ↔ 0 < o.secondary)
    (P : Str → Prop) (ray : ℝ × ℝ)
    (h : ∀ j, j < c.sample.length → ∀ (el : Str) (t : Str) (f : Factor ℝ), (t, f) ∈ excitedLines L (String.ofList el) ray.1 →
      ' ' ∉ el → P (sourceName (el ++ ' ' :: t) j) → (WithinLimit o.limit f.rate ↔ WithinLimit o'.limit f.rate))
    (k : String) (i : Nat) (t : Str) (q : Request) :
    secondaryTerm pf fuel L srt c o k i t P ray q = secondaryTerm pf fuel L srt c o' k i t P ray q := by
  unfold secondaryTerm
  split
  · rfl
  · rename_i f hf
    by_cases hc : Asked L q k i t ray.1 ∧ 0 < f.factor ∧ i < c.sample.length ∧ 0 < o.secondary
    · rw [if_pos hc, if_pos ⟨hc.1, hc.2.1, hc.2.2.1, hs.2 hc.2.2.2⟩]
      refine congrArg List.sum (List.map_congr_left (fun j hj => ?_))
      rw [List.mem_range] at hj
      simp only [contribution_options hm]
      refine sources_congr _ j ray (fun el t' f' x hmem hsp => ?_)
      by_cases hP : P (sourceName (el ++ ' ' :: t') j)
      · exact Or.inr (h j hj el t' f' hmem hsp hP)
      · left
        simp only [hP, if_false]
    · rw [if_neg hc, if_neg (fun hh => hc ⟨hh.1, hh.2.1, hh.2.2.1, hs.1 hh.2.2.2⟩)]

theorem beam_congr (hm : o'.useMassFractions = o.useMassFractions) (hs : 0 < o'.secondary ↔ 0 < o.secondary) (P : Str → Prop)
    (h : ∀ ray ∈ usedBeam c b, ∀ j, j < c.sample.length → ∀ (el : Str) (t : Str) (f : Factor ℝ),
      (t, f) ∈ excitedLines L (String.ofList el) ray.1 → ' ' ∉ el → P (sourceName (el ++ ' ' :: t) j) →
      (WithinLimit o.limit f.rate ↔ WithinLimit o'.limit f.rate))
    (k : String) (i : Nat) (t : Str) (reqs : List Request) :
    ((usedBeam c b).map (fun ray => (reqs.map (secondaryTerm pf fuel L srt c o k i t P (behind pf fuel L c ray))).sum)).sum =
    ((usedBeam c b).map (fun ray => (reqs.map (secondaryTerm pf fuel L srt c o' k i t P (behind pf fuel L c ray))).sum)).sum := by
  refine congrArg List.sum (List.map_congr_left (fun ray hray => ?_))
  refine congrArg List.sum (List.map_congr_left (fun q _ => ?_))
  exact secondaryTerm_congr hm hs P (behind pf fuel L c ray) (h ray hray) k i t q

/-- **C178** Changing the limit does not change the contribution of a source whose rate is within both limits for every ray. -/
theorem C178_kept (hL : SoundLibrary pf fuel L) (hm : o'.useMassFractions = o.useMassFractions)
    (hs : 0 < o'.secondary ↔ 0 < o.secondary) (reqs : List Request)
    (hp : ∀ q ∈ reqs, ' ' ∉ q.element.toList) (r r' : Result ℝ)
    (h : fluorescence pf fuel L srt c o g b (reqs.map .ok) = .ok r)
    (h' : fluorescence pf fuel L srt c o' g b (reqs.map .ok) = .ok r') (name : Str) (j : Nat)
    (hk : ∀ ray ∈ usedBeam c b, ∀ (el : String) (t : Str) (f : Factor ℝ), (t, f) ∈ excitedLines L el ray.1 →
      ∀ j' < c.sample.length, sourceName (el.toList ++ ' ' :: t) j' = sourceName name j →
      WithinLimit o.limit f.rate ∧ WithinLimit o'.limit f.rate)
    (k : String) (i : Nat) (t : Str) (ht : ' ' ∉ t) :
    ((leaf? r k i t).map (fun l => (l.contrib.find? (sourceName name j)).getD 0)).getD 0 =
    ((leaf? r' k i t).map (fun l => (l.contrib.find? (sourceName name j)).getD 0)).getD 0 := by
  rw [C84_by_source pf fuel L srt c o g hL reqs hp b r h k i t ht, C84_by_source pf fuel L srt c o' g hL reqs hp b r' h' k i t ht]
  refine beam_congr hm hs _ (fun ray hray j' hj' el t' f hf _ hn => ?_) k i t reqs
  obtain ⟨h1, h2⟩ := hk ray hray _ t' f hf j' hj' (by rw [String.toList_ofList]; exact hn)
  exact ⟨fun _ => h2, fun _ => h1⟩

/-- **C178** A line whose rate is below the limit for every ray contributes nothing. -/
theorem C178_dropped (hL : SoundLibrary pf fuel L) (reqs : List Request)
    (hp : ∀ q ∈ reqs, ' ' ∉ q.element.toList) (r : Result ℝ)
    (h : fluorescence pf fuel L srt c o g b (reqs.map .ok) = .ok r) (name : Str) (j : Nat) (h0 : 0 < o.limit)
    (hsc : ∀ j' < c.sample.length, sourceName "coherent scattering".toList j' ≠ sourceName name j)
    (hk : ∀ ray ∈ usedBeam c b, ∀ (el : String) (t : Str) (f : Factor ℝ), (t, f) ∈ excitedLines L el ray.1 →
      ∀ j' < c.sample.length, sourceName (el.toList ++ ' ' :: t) j' = sourceName name j → f.rate < o.limit)
    (k : String) (i : Nat) (t : Str) (ht : ' ' ∉ t) :
    ((leaf? r k i t).map (fun l => (l.contrib.find? (sourceName name j)).getD 0)).getD 0 = 0 := by
  rw [C84_by_source pf fuel L srt c o g hL reqs hp b r h k i t ht]
  refine List.sum_eq_zero (fun x hx => ?_)
  obtain ⟨ray, hray, rfl⟩ := List.mem_map.1 hx
  refine List.sum_eq_zero (fun x hx => ?_)
  obtain ⟨q, -, rfl⟩ := List.mem_map.1 hx
  unfold secondaryTerm
  split
  · rfl
  · split
    · refine List.sum_eq_zero (fun x hx => ?_)
      obtain ⟨j', hj', rfl⟩ := List.mem_map.1 hx
      rw [List.mem_range] at hj'
      refine List.sum_eq_zero (fun x hx => ?_)
      obtain ⟨s, hs, rfl⟩ := List.mem_map.1 hx
      rw [if_neg]
      intro hn
      unfold sources at hs
      rcases List.mem_append.1 hs with hs | hs
      · obtain ⟨fam, -, hs⟩ := List.mem_flatMap.1 hs
        obtain ⟨p, hmem, rfl⟩ := List.mem_map.1 hs
        obtain ⟨hmem, hsrc⟩ := List.mem_filter.1 hmem
        have hsrc := @of_decide_eq_true _ (_) hsrc
        have := hk ray hray _ p.1 p.2 hmem j' hj' (by rw [String.toList_ofList]; exact hn)
        exact absurd (hsrc.2.2 h0) (not_le.2 this)
      · rw [List.mem_singleton] at hs
        subst hs
        exact hsc j' hj' hn
    · rfl

/-- **C178** The contribution of the scattered beam does not depend on the limit (no element is called `coherent`). -/
theorem C178_scattering (hL : SoundLibrary pf fuel L) (hno : L.isElementNameDefined "coherent" = false)
    (hm : o'.useMassFractions = o.useMassFractions)
    (hs : 0 < o'.secondary ↔ 0 < o.secondary) (reqs : List Request)
    (hp : ∀ q ∈ reqs, ' ' ∉ q.element.toList) (r r' : Result ℝ)
    (h : fluorescence pf fuel L srt c o g b (reqs.map .ok) = .ok r)
    (h' : fluorescence pf fuel L srt c o' g b (reqs.map .ok) = .ok r') (j : Nat)
    (k : String) (i : Nat) (t : Str) (ht : ' ' ∉ t) :
    ((leaf? r k i t).map (fun l => (l.contrib.find? (sourceName "coherent scattering".toList j)).getD 0)).getD 0 =
    ((leaf? r' k i t).map (fun l => (l.contrib.find? (sourceName "coherent scattering".toList j)).getD 0)).getD 0 := by
  rw [C84_by_source pf fuel L srt c o g hL reqs hp b r h k i t ht, C84_by_source pf fuel L srt c o' g hL reqs hp b r' h' k i t ht]
  refine beam_congr hm hs _ (fun ray hray j' hj' el t' f hf hsp hn => ?_) k i t reqs
  exfalso
  have hel : el = "coherent".toList := by
    have h1 : (sourceName (el ++ ' ' :: t') j').takeWhile (fun ch => ch ≠ ' ') = el := by
      unfold sourceName
      rw [List.append_assoc]
      exact takeWhile_escName _ _ hsp
    rw [hn] at h1
    rw [← h1]
    have hpl : ' ' ∉ "coherent".toList := by decide
    unfold sourceName
    rw [show "coherent scattering".toList = "coherent".toList ++ ' ' :: "scattering".toList by decide, List.append_assoc]
    exact takeWhile_escName _ _ hpl
  subst hel
  unfold excitedLines Library.getElement at hf
  rw [String.ofList_toList, hno] at hf
  cases hf

/-- **C178** Without a positive limit its value does not matter: the secondary excitation of every line, and all its parts, are the same. -/
theorem C178_no_limit (hL : SoundLibrary pf fuel L) (hm : o'.useMassFractions = o.useMassFractions)
    (hs : 0 < o'.secondary ↔ 0 < o.secondary) (hl : o.limit ≤ 0) (hl' : o'.limit ≤ 0) (reqs : List Request)
    (hp : ∀ q ∈ reqs, ' ' ∉ q.element.toList) (r r' : Result ℝ)
    (h : fluorescence pf fuel L srt c o g b (reqs.map .ok) = .ok r)
    (h' : fluorescence pf fuel L srt c o' g b (reqs.map .ok) = .ok r')
    (k : String) (i : Nat) (t : Str) (ht : ' ' ∉ t) :
    ((leaf? r k i t).map Leaf.secondary).getD 0 = ((leaf? r' k i t).map Leaf.secondary).getD 0 ∧
    ∀ n, ((leaf? r k i t).map (fun l => (l.contrib.find? n).getD 0)).getD 0 =
      ((leaf? r' k i t).map (fun l => (l.contrib.find? n).getD 0)).getD 0 := by
  have hw : ∀ x, WithinLimit o.limit x ↔ WithinLimit o'.limit x :=
    fun x => ⟨fun _ hh => absurd hh (not_lt.2 hl'), fun _ hh => absurd hh (not_lt.2 hl)⟩
  refine ⟨?_, fun n => ?_⟩
  · rw [C84_secondary pf fuel L srt c o g hL reqs hp b r h k i t ht, C84_secondary pf fuel L srt c o' g hL reqs hp b r' h' k i t ht]
    exact beam_congr hm hs _ (fun _ _ _ _ _ _ f _ _ _ => hw f.rate) k i t reqs
  · rw [C84_by_source pf fuel L srt c o g hL reqs hp b r h k i t ht, C84_by_source pf fuel L srt c o' g hL reqs hp b r' h' k i t ht]
    exact beam_congr hm hs _ (fun _ _ _ _ _ _ f _ _ _ => hw f.rate) k i t reqs

/-! ## Cases -/

/-- `C178_scattering`, `C178_no_limit`: iron with secondary excitation and any two limits; both calculations return. -/
theorem fe_limits (fuel : Nat) (srt : List (String × ℝ) → List (String × ℝ)) (hs : Library.SortsByEnergy srt) (limit limit' : ℝ) :
    ∃ r r', fluorescence feParser (fuel + 1) feLibrary srt feConfig ⟨1, true, limit⟩ true Beam.new [.ok ⟨"Fe", "K", 0⟩] = .ok r ∧
      fluorescence feParser (fuel + 1) feLibrary srt feConfig ⟨1, true, limit'⟩ true Beam.new [.ok ⟨"Fe", "K", 0⟩] = .ok r' ∧
      (leaf? r "Fe K" 0 "KL3".toList).isSome ∧
      ((leaf? r "Fe K" 0 "KL3".toList).map (fun l => (l.contrib.find? (sourceName "coherent scattering".toList 0)).getD 0)).getD 0 =
      ((leaf? r' "Fe K" 0 "KL3".toList).map (fun l => (l.contrib.find? (sourceName "coherent scattering".toList 0)).getD 0)).getD 0 ∧
      (limit ≤ 0 → limit' ≤ 0 → ((leaf? r "Fe K" 0 "KL3".toList).map Leaf.secondary).getD 0 =
        ((leaf? r' "Fe K" 0 "KL3".toList).map Leaf.secondary).getD 0) := by
  obtain ⟨r, h1, h2, -, -⟩ := fe_result_secondary fuel srt hs limit 1 (by norm_num)
  obtain ⟨r', h1', -, -, -⟩ := fe_result_secondary fuel srt hs limit' 1 (by norm_num)
  exact ⟨r, r', h1, h1', h2,
    C178_scattering (o := ⟨1, true, limit⟩) (o' := ⟨1, true, limit'⟩) (feSound _ _) (by simp [Library.isElementNameDefined, feLibrary, SMap.mem, SMap.find?]) rfl Iff.rfl [⟨"Fe", "K", 0⟩]
      (by simp) r r' h1 h1' 0 "Fe K" 0 "KL3".toList (by decide),
    fun hl hl' => (C178_no_limit (o := ⟨1, true, limit⟩) (o' := ⟨1, true, limit'⟩) (feSound _ _) rfl Iff.rfl hl hl' [⟨"Fe", "K", 0⟩] (by simp) r r' h1 h1' "Fe K" 0 "KL3".toList
      (by decide)).1⟩

/-- `C178_kept`, `C178_dropped`: iron; with a limit above the rates of its lines they contribute nothing, with one below the
contributions are those without a limit. -/
theorem fe_limit_effect (fuel : Nat) (srt : List (String × ℝ) → List (String × ℝ)) (hs : Library.SortsByEnergy srt) :
    ∃ low high r0 r1 r2, 0 < low ∧ low < high ∧
      fluorescence feParser (fuel + 1) feLibrary srt feConfig ⟨1, true, 0⟩ true Beam.new [.ok ⟨"Fe", "K", 0⟩] = .ok r0 ∧
      fluorescence feParser (fuel + 1) feLibrary srt feConfig ⟨1, true, low⟩ true Beam.new [.ok ⟨"Fe", "K", 0⟩] = .ok r1 ∧
      fluorescence feParser (fuel + 1) feLibrary srt feConfig ⟨1, true, high⟩ true Beam.new [.ok ⟨"Fe", "K", 0⟩] = .ok r2 ∧
      ((leaf? r0 "Fe K" 0 "KL3".toList).map (fun l => (l.contrib.find? (sourceName "Fe KL3".toList 0)).getD 0)).getD 0 =
        ((leaf? r1 "Fe K" 0 "KL3".toList).map (fun l => (l.contrib.find? (sourceName "Fe KL3".toList 0)).getD 0)).getD 0 ∧
      ((leaf? r2 "Fe K" 0 "KL3".toList).map (fun l => (l.contrib.find? (sourceName "Fe KL3".toList 0)).getD 0)).getD 0 = 0 := by
  obtain ⟨f, h1, h2, -⟩ := fe_only_line 1 one_pos
  have hray : ∀ ray ∈ usedBeam feConfig Beam.new, ray.1 = 10 := by
    intro ray hm
    simp [usedBeam, feConfig, Beam.new] at hm
    rw [hm]
  have hlines : ∀ (el : String) (t : Str) (f' : Factor ℝ), (t, f') ∈ excitedLines feLibrary el 10 → f' = f := by
    intro el t f' hm
    by_cases he : el = "Fe"
    · subst he
      have h4 : (do let x ← feLibrary.getElement "Fe"; x.data.getFactors 10 1) = Outcome.ok [("KL3".toList, f)] := h1
      unfold excitedLines at hm
      rw [h4] at hm
      exact (Prod.mk.inj (List.mem_singleton.1 hm)).2
    · exfalso
      have hd : feLibrary.isElementNameDefined el = false := by
        simp [Library.isElementNameDefined, feLibrary, SMap.mem, SMap.find?, Ne.symm he]
      unfold excitedLines Library.getElement at hm
      rw [hd] at hm
      cases hm
  obtain ⟨r0, e0, -, -, -⟩ := fe_result_secondary fuel srt hs 0 1 (by norm_num)
  obtain ⟨r1, e1, -, -, -⟩ := fe_result_secondary fuel srt hs (f.rate / 2) 1 (by norm_num)
  obtain ⟨r2, e2, -, -, -⟩ := fe_result_secondary fuel srt hs (f.rate + 1) 1 (by norm_num)
  refine ⟨f.rate / 2, f.rate + 1, r0, r1, r2, by linarith, by linarith, e0, e1, e2, ?_, ?_⟩
  · refine C178_kept (o := ⟨1, true, 0⟩) (o' := ⟨1, true, f.rate / 2⟩) (feSound _ _) rfl Iff.rfl [⟨"Fe", "K", 0⟩] (by simp) r0 r1 e0 e1
      _ 0 (fun ray hm el t f' hf j' hj' _ => ?_) "Fe K" 0 "KL3".toList (by decide)
    rw [hray ray hm] at hf
    rw [hlines el t f' hf]
    exact ⟨fun hh => absurd hh (lt_irrefl _), fun _ => by dsimp only; linarith⟩
  · refine C178_dropped (o := ⟨1, true, f.rate + 1⟩) (feSound _ _) [⟨"Fe", "K", 0⟩] (by simp) r2 e2 _ 0 (by dsimp only; linarith)
      (fun j' hj' => ?_) (fun ray hm el t f' hf j' hj' _ => ?_) "Fe K" 0 "KL3".toList (by decide)
    · unfold sourceName
      intro hh
      have := congrArg List.head? hh
      simp at this
    · rw [hray ray hm] at hf
      rw [hlines el t f' hf]
      dsimp only
      linarith

end Multilayer
end Fisx
