import Verif.MultilayerEnv
import Verif.ElementLines
import Verif.LibraryPeaks

/-!
# C45, C46, C47 and C54 for a configuration and a library

The hypotheses of the theorems on environments hold for the environment of a configuration and a library whose elements
are sound (`SoundLibrary`).
-/

set_option linter.unusedSectionVars false

namespace Fisx
namespace Multilayer

open Xrf (Request)

/-- The data of an element make sense: its caches hold what would be computed, a line belongs to one shell, the names of
the lines contain neither blanks nor "esc", and no binding energy is negative. -/
structure SoundElement (e : Element ℝ) : Prop where
  fresh : Element.Fresh e
  cached : Element.CacheTrue e
  disjoint : ∀ k s k' s' t r r', e.shells.find? k = some s → e.shells.find? k' = some s' →
    (t, r) ∈ s.fluorescence → (t, r') ∈ s'.fluorescence → k = k'
  blank : ∀ k s t r, e.shells.find? k = some s → (t, r) ∈ s.fluorescence → ' ' ∉ t
  esc : ∀ k s t r, e.shells.find? k = some s → (t, r) ∈ s.fluorescence → hasEsc t = false
  binding : ∀ k b, e.binding.find? k = some b → 0 ≤ b

/-- All elements make sense, and the cache of escape peaks holds what would be computed. -/
structure SoundLibrary (pf : String → Outcome (SMap String ℝ)) (fuel : Nat) (L : Library ℝ) : Prop where
  elements : ∀ e ∈ L.elements, SoundElement e.data
  escape : Library.EscapeTrue pf fuel L

section lemmas

variable {R : Type} {pf : String → Outcome (SMap String ℝ)} {fuel : Nat} {L : Library ℝ}
  {srt : List (String × ℝ) → List (String × ℝ)} {c : Config ℝ R} {comps : List (SMap String ℝ)} {geoms : List ℝ}

theorem collect_of_forall₂ {α β : Type} {f : α → Outcome β} {l : List α} {bs : List β}
    (h : List.Forall₂ (fun a b => f a = .ok b) l bs) : collect f l = .ok bs := by
  induction h with
  | nil => rfl
  | cons h1 h2 ih => rw [collect, h1, ih]; rfl

theorem mixMus_collect {input : SMap String ℝ} {b : Bool} {es : List ℝ} {ms : List (Mix ℝ)}
    (h : L.mixMus pf fuel input es b = .ok ms) : collect (fun e => L.mixMu pf fuel input e b) es = .ok ms := by
  by_cases hes : es = []
  · subst hes
    unfold Library.mixMus at h
    obtain ⟨a, -, h⟩ := Outcome.bind_eq_ok.mp h
    simp only [Library.mixList, Outcome.ok.injEq] at h
    subst h; rfl
  · exact collect_of_forall₂ ((Library.C31_energies pf L fuel input es hes b ms).1 h)

theorem layerMus_collect {l : Layer ℝ} {comp : SMap String ℝ} {es : List ℝ} {ms : List (Mix ℝ)}
    (h : layerMus pf fuel L c l es comp = .ok ms) :
    collect (fun e => layerMu pf fuel L c l e comp) es = .ok ms := by
  unfold layerMus at h
  unfold layerMu
  split at h
  · rename_i hlen
    simp only [if_pos hlen]
    exact mixMus_collect h
  · rename_i hlen
    obtain ⟨m, hm, h⟩ := Outcome.bind_eq_ok.mp h
    simp only [if_neg hlen, hm, Outcome.ok_bind]
    exact mixMus_collect h

/-- The coefficients of a layer of the sample. -/
noncomputable def sampleMix (pf : String → Outcome (SMap String ℝ)) (fuel : Nat) (L : Library ℝ) (c : Config ℝ R)
    (comps : List (SMap String ℝ)) (i : Nat) (e : ℝ) : Outcome (Mix ℝ) := do
  let l ← vget c.sample i
  let m ← vget comps i
  layerMu pf fuel L c l e m

theorem excite_sound (hL : SoundLibrary pf fuel L) {el : String} {e w : ℝ} {fs : SMap Str (Factor ℝ)}
    (h : (envOf pf fuel L srt c comps geoms).excite el e w = .ok fs) :
    ∃ x, L.getElement el = .ok x ∧ SoundElement x.data ∧ x.data.getFactors e w = .ok fs ∧ SMap.Sorted fs ∧
      ∀ t f, fs.find? t = some f → Element.LineOf x.data t f.energy := by
  obtain ⟨x, h1, h2⟩ := Outcome.bind_eq_ok.mp h
  have hs := hL.elements x (Library.getElement_mem L el x h1)
  obtain ⟨h3, h4⟩ := Element.getFactors_lines hs.fresh hs.cached h2
  exact ⟨x, h1, hs, h2, h3, h4⟩

theorem escape_sound (hL : SoundLibrary pf fuel L) {e : ℝ} {esc : SMap String (Line ℝ)}
    (h : (envOf pf fuel L srt c comps geoms).escape e = .ok esc) :
    ∃ comp mi, let key : EscapeKey ℝ := ⟨comp, c.detector.energyThreshold, c.detector.intensityThreshold,
        c.detector.nThreshold, c.detector.alphaIn, 0⟩
      L.mixMu pf fuel comp e false = .ok mi ∧ SMap.Sorted esc ∧
      ∀ p ∈ esc, ∃ n t f mf, Library.EscapePeak pf L fuel key e mi p.1 p.2 n t f mf := by
  change detectorEscape pf fuel L c.detector.params e = .ok esc at h
  unfold detectorEscape at h
  obtain ⟨comp, h1, h⟩ := Outcome.bind_eq_ok.mp h
  dsimp only at h
  rw [Library.getEscape_true pf fuel L hL.escape] at h
  have h0 := h
  unfold Library.computeEscape at h
  obtain ⟨mi, hmi, h⟩ := Outcome.bind_eq_ok.mp h
  refine ⟨comp, mi, hmi, (Library.escapeElements_complete pf L fuel _ e mi.total _ _ _ h).1 SMap.sorted_nil, ?_⟩
  intro p hp
  obtain ⟨mi', n, t, f, mf, hh⟩ := (Library.C33_peaks pf L fuel _ e esc h0).2 p hp
  have : mi' = mi := by
    have := hh.incident
    rw [show L.mixMu pf fuel comp e false = Outcome.ok mi from hmi] at this
    exact (Outcome.ok.inj this).symm
  subst this
  exact ⟨n, t, f, mf, hh⟩

theorem env_regular (hL : SoundLibrary pf fuel L) : Regular (envOf pf fuel L srt c comps geoms) := by
  refine ⟨?_, ?_, ?_⟩
  · intro e esc h
    obtain ⟨comp, mi, -, h2, -⟩ := escape_sound hL h
    exact h2
  · intro el e w fs h
    obtain ⟨x, -, -, -, h4, -⟩ := excite_sound hL h
    exact h4
  · intro el e w fs h t ht
    obtain ⟨x, -, hs, -, h4, h5⟩ := excite_sound hL h
    obtain ⟨p, hp, rfl⟩ := List.mem_map.mp ht
    obtain ⟨k, s, r, a1, a2, -⟩ := h5 p.1 p.2 (SMap.find?_of_mem h4 hp)
    exact hs.blank k s p.1 r a1 a2

theorem hasEsc_suffix (a : Str) : hasEsc (a ++ "esc".toList) = true := hasEsc_append a _ (by decide)

theorem env_names (hL : SoundLibrary pf fuel L) (hd : 0 ≤ c.detector.intensityThreshold) :
    EscapeNames (envOf pf fuel L srt c comps geoms) := by
  refine ⟨?_, ?_, ?_⟩
  · intro e esc h x hx
    obtain ⟨comp, mi, -, -, h3⟩ := escape_sound hL h
    obtain ⟨n, t, f, mf, hh⟩ := h3 x hx
    rw [hh.name_eq, String.toList_append]
    exact hasEsc_suffix _
  · intro e esc h x hx
    obtain ⟨comp, mi, -, -, h3⟩ := escape_sound hL h
    obtain ⟨n, t, f, mf, hh⟩ := h3 x hx
    rw [hh.rate_eq, if_neg (lt_irrefl _)]
    exact le_of_lt (lt_of_le_of_lt hd hh.above)
  · intro el e w fs h t ht
    obtain ⟨x, -, hs, -, h4, h5⟩ := excite_sound hL h
    obtain ⟨p, hp, rfl⟩ := List.mem_map.mp ht
    obtain ⟨k, s, r, a1, a2, -⟩ := h5 p.1 p.2 (SMap.find?_of_mem h4 hp)
    exact hs.esc k s p.1 r a1 a2

theorem threshold_nonneg {b : SMap Str ℝ} (hb : ∀ k v, b.find? k = some v → 0 ≤ v) (family : Str) :
    0 ≤ Xrf.threshold b family := by
  have h0 : ∀ k, 0 ≤ Element.at0 b k := by
    intro k
    unfold Element.at0
    cases h : b.find? k with
    | none => exact le_rfl
    | some v => exact hb k v h
  unfold Xrf.threshold
  dsimp only
  split_ifs <;> first | exact h0 _ | exact le_rfl

theorem env_consistent (hL : SoundLibrary pf fuel L) :
    Consistent (envOf pf fuel L srt c comps geoms) (sampleMix pf fuel L c comps) := by
  refine ⟨?_, ?_, ?_, ?_⟩
  · intro i e
    show (do let l ← vget c.sample i; let m ← vget comps i; let r ← layerMu pf fuel L c l e m; return r.total) = _
    unfold sampleMix
    cases vget c.sample i <;> try rfl
    cases vget comps i <;> rfl
  · intro i es ms h
    change (do let l ← vget c.sample i; let m ← vget comps i; layerMus pf fuel L c l es m) = _ at h
    obtain ⟨l, h1, h⟩ := Outcome.bind_eq_ok.mp h
    obtain ⟨m, h2, h⟩ := Outcome.bind_eq_ok.mp h
    have h3 := layerMus_collect h
    have : sampleMix pf fuel L c comps i = fun e => layerMu pf fuel L c l e m := by
      funext e
      unfold sampleMix
      rw [h1, h2]; rfl
    rw [this]; exact h3
  · intro el e w fs e' w' fs' t f f' h h' hf hf'
    obtain ⟨x, a1, hs, -, -, a5⟩ := excite_sound hL h
    obtain ⟨x', b1, -, -, -, b5⟩ := excite_sound hL h'
    rw [a1] at b1
    cases b1
    obtain ⟨k, s, r, c1, c2, c3⟩ := a5 t f hf
    obtain ⟨k', s', r', d1, d2, d3⟩ := b5 t f' hf'
    obtain rfl := hs.disjoint k s k' s' t r r' c1 d1 c2 d2
    rw [c3] at d3
    exact Outcome.ok.inj d3
  · intro el fam thr h
    change Xrf.getEnergyThreshold L el fam = .ok thr at h
    unfold Xrf.getEnergyThreshold at h
    obtain ⟨x, h1, h⟩ := Outcome.bind_eq_ok.mp h
    simp only [Outcome.pure_eq, Outcome.ok.injEq] at h
    rw [← h]
    exact threshold_nonneg (hL.elements x (Library.getElement_mem L el x h1)).binding _

theorem env_linear (hL : SoundLibrary pf fuel L) (k : ℝ) : LinearIn (envOf pf fuel L srt c comps geoms) k := by
  intro el e w fs fs' h h'
  obtain ⟨x, a1, hs, a3, -, -⟩ := excite_sound hL h
  obtain ⟨x', b1, -, b3, -, -⟩ := excite_sound hL h'
  rw [a1] at b1
  cases b1
  rw [Element.getFactors_weight hs.cached a3 k] at b3
  rw [← Outcome.ok.inj b3]
  apply List.map_congr_left
  intro p _
  rfl

end lemmas


/-! ## The beam behind the filters -/

section filters

variable {R : Type} (pf : String → Outcome (SMap String ℝ)) (fuel : Nat) (L : Library ℝ) (c : Config ℝ R)

/-- The part of the photons of an energy that passes the beam filters. -/
noncomputable def filterFactor : List (Layer ℝ) → ℝ → Outcome ℝ
  | [], _ => .ok 1
  | l :: rest, e => do
    let t ← layerTransmission pf fuel L c l e 90 []
    let r ← filterFactor rest e
    return t * r

/-- The value of an outcome that is known to be one. -/
noncomputable def valueOr0 : Outcome ℝ → ℝ
  | .ok v => v
  | _ => 0

/-- The part of the photons of an energy that passes the beam filters and the user filters. -/
noncomputable def passing (e : ℝ) : ℝ :=
  valueOr0 (filterFactor pf fuel L c c.beamFilters e) * (c.userBeamFilters.map (fun t => t.getTransmission e)).prod

/-- A ray behind the filters. -/
noncomputable def behind (ray : ℝ × ℝ) : ℝ × ℝ := (ray.1, ray.2 * passing pf fuel L c ray.1)

variable {pf fuel L c}

theorem layerTransmissions_each {l : Layer ℝ} {es : List ℝ} {angle : ℝ} {comp : SMap String ℝ} {ts : List ℝ}
    (h : layerTransmissions pf fuel L c l es angle comp = .ok ts) :
    List.Forall₂ (fun e t => layerTransmission pf fuel L c l e angle comp = .ok t) es ts := by
  unfold layerTransmissions Layer.getTransmissions at h
  obtain ⟨xs, h1, h⟩ := Outcome.bind_eq_ok.mp h
  simp only [Outcome.pure_eq, Outcome.ok.injEq] at h
  subst h
  dsimp only at h1
  split at h1
  · cases h1
  · rename_i hpos
    obtain ⟨ms, h2, h1⟩ := Outcome.bind_eq_ok.mp h1
    simp only [Outcome.pure_eq, Outcome.ok.injEq] at h1
    subst h1
    obtain ⟨mx, h3, h2⟩ := Outcome.bind_eq_ok.mp h2
    simp only [Outcome.pure_eq, Outcome.ok.injEq] at h2
    subst h2
    have h4 := collect_ok (layerMus_collect h3)
    have key : ∀ e m, layerMu pf fuel L c l e comp = .ok m → layerTransmission pf fuel L c l e angle comp =
        .ok (finite (Layer.transmissionOf l.funnyFactor (l.massThickness angle) m.total)) := by
      intro e m hm
      have h5 : layerMus pf fuel L c l [e] comp = .ok [m] := by
        unfold layerMu at hm
        unfold layerMus
        split at hm
        · rename_i hlen
          rw [if_pos hlen]
          exact (Library.C31_energies pf L fuel comp [e] (by simp) true [m]).2 (List.Forall₂.cons hm List.Forall₂.nil)
        · rename_i hlen
          rw [if_neg hlen]
          obtain ⟨q, hq, hm⟩ := Outcome.bind_eq_ok.mp hm
          rw [hq]
          exact (Library.C31_energies pf L fuel q [e] (by simp) false [m]).2 (List.Forall₂.cons hm List.Forall₂.nil)
      unfold layerTransmission layerTransmissions Layer.getTransmissions
      rw [h5]
      dsimp only
      rw [if_neg hpos]
      rfl
    clear * - h4 key
    induction h4 with
    | nil => exact List.Forall₂.nil
    | cons a _ ih => exact List.Forall₂.cons (key _ _ a) ih

theorem filterLoop_map (fs : List (Layer ℝ)) : ∀ (rays out : List (ℝ × ℝ)), filterLoop pf fuel L c fs rays = .ok out →
    out = rays.map (fun r => (r.1, r.2 * valueOr0 (filterFactor pf fuel L c fs r.1))) ∧
    ∀ r ∈ rays, ∃ v, filterFactor pf fuel L c fs r.1 = .ok v := by
  induction fs with
  | nil =>
    intro rays out h
    simp only [filterLoop, Outcome.ok.injEq] at h
    subst h
    exact ⟨by simp [filterFactor, valueOr0], fun r _ => ⟨1, rfl⟩⟩
  | cons l fs ih =>
    intro rays out h
    unfold filterLoop at h
    obtain ⟨ts, h1, h⟩ := Outcome.bind_eq_ok.mp h
    obtain ⟨h2, h3⟩ := ih _ _ h
    have h4 := layerTransmissions_each h1
    have h5 : ∀ (rays : List (ℝ × ℝ)) (ts : List ℝ),
        List.Forall₂ (fun e t => layerTransmission pf fuel L c l e 90 [] = .ok t) (rays.map Prod.fst) ts →
        attenuate rays ts = rays.map (fun r => (r.1, r.2 * valueOr0 (layerTransmission pf fuel L c l r.1 90 []))) ∧
        ∀ r ∈ rays, ∃ v, layerTransmission pf fuel L c l r.1 90 [] = .ok v := by
      intro rays
      induction rays with
      | nil => intro ts h; cases h; exact ⟨rfl, by simp⟩
      | cons r rays ihr =>
        intro ts h
        cases h with
        | cons a b =>
          obtain ⟨p1, p2⟩ := ihr _ b
          refine ⟨?_, ?_⟩
          · unfold attenuate at p1 ⊢
            rw [List.zipWith_cons_cons, p1, List.map_cons, a]
            rfl
          · intro q hq
            rcases List.mem_cons.mp hq with rfl | hq
            · exact ⟨_, a⟩
            · exact p2 q hq
    obtain ⟨h6, h7⟩ := h5 _ _ h4
    rw [h6] at h2 h3
    refine ⟨?_, ?_⟩
    · rw [h2, List.map_map]
      apply List.map_congr_left
      intro r hr
      obtain ⟨v, hv⟩ := h7 r hr
      obtain ⟨u, hu⟩ := h3 _ (List.mem_map.mpr ⟨r, hr, rfl⟩)
      simp only [Function.comp, filterFactor]
      dsimp only at hu
      rw [hv, hu]
      simp only [valueOr0, Outcome.ok_bind, Outcome.pure_eq, Prod.mk.injEq, true_and]
      ring
    · intro r hr
      obtain ⟨v, hv⟩ := h7 r hr
      obtain ⟨u, hu⟩ := h3 _ (List.mem_map.mpr ⟨r, hr, rfl⟩)
      dsimp only at hu
      exact ⟨v * u, by rw [filterFactor, hv, hu]; rfl⟩

theorem userFilterLoop_map (ts : List (TransmissionTable ℝ)) : ∀ rays : List (ℝ × ℝ),
    userFilterLoop ts rays = rays.map (fun r => (r.1, r.2 * (ts.map (fun t => t.getTransmission r.1)).prod)) := by
  induction ts with
  | nil => intro rays; simp [userFilterLoop]
  | cons t ts ih =>
    intro rays
    have : attenuate rays (t.getTransmissions (rays.map Prod.fst)) =
        rays.map (fun r => (r.1, r.2 * t.getTransmission r.1)) := by
      unfold attenuate TransmissionTable.getTransmissions
      induction rays with
      | nil => rfl
      | cons r rays ihr => simp only [List.map_cons, List.zipWith_cons_cons, ihr]
    rw [userFilterLoop, this, ih, List.map_map]
    apply List.map_congr_left
    intro r _
    simp only [Function.comp, List.map_cons, List.prod_cons, Prod.mk.injEq, true_and]
    ring

/-- The call reduces to the calculation for the rays behind the filters. -/
theorem fluorescence_ok {srt : List (String × ℝ) → List (String × ℝ)} {o : Options ℝ} {g : Bool} {b : Beam ℝ}
    {reqs : List (Outcome Request)} {r : Result ℝ} (h : fluorescence pf fuel L srt c o g b reqs = .ok r) :
    ∃ comps geoms, compositions pf fuel L c c.sample = .ok comps ∧ geometricLoop c g 0 c.sample = .ok geoms ∧
      calculate (envOf pf fuel L srt c comps geoms) o reqs ((usedBeam c b).map (behind pf fuel L c)) = .ok r := by
  unfold fluorescence at h
  obtain ⟨comps, h1, h⟩ := Outcome.bind_eq_ok.mp h
  obtain ⟨rays, h2, h⟩ := Outcome.bind_eq_ok.mp h
  obtain ⟨geoms, h3, h⟩ := Outcome.bind_eq_ok.mp h
  refine ⟨comps, geoms, h1, h3, ?_⟩
  rw [← h, userFilterLoop_map, (filterLoop_map _ _ _ h2).1, List.map_map]
  congr 1
  apply List.map_congr_left
  intro q _
  simp only [behind, passing, Function.comp, Prod.mk.injEq, true_and]
  ring

/-- The environment is the same for all beams and requests. -/
theorem fluorescence_env (srt : List (String × ℝ) → List (String × ℝ)) (hL : SoundLibrary pf fuel L) (g : Bool) :
    ∃ env mix, Regular env ∧ Consistent env mix ∧ (∀ k, LinearIn env k) ∧
      (0 ≤ c.detector.intensityThreshold → EscapeNames env) ∧
      (env.hasDetector = (c.detector.layer.hasMaterial || decide (c.detector.layer.materialName.length > 0))) ∧
      (∀ e, env.escape e = detectorEscape pf fuel L c.detector.params e) ∧
      (∀ el fam, env.threshold el fam = Xrf.getEnergyThreshold L el fam) ∧
      ∀ o b reqs r, fluorescence pf fuel L srt c o g b reqs = .ok r →
        calculate env o reqs ((usedBeam c b).map (behind pf fuel L c)) = .ok r := by
  cases hx : compositions pf fuel L c c.sample with
  | ok comps =>
    cases hy : geometricLoop c g 0 c.sample with
    | ok geoms =>
      refine ⟨envOf pf fuel L srt c comps geoms, _, env_regular hL, env_consistent hL, env_linear hL, env_names hL,
        rfl, fun _ => rfl, fun _ _ => rfl, ?_⟩
      intro o b reqs r h
      obtain ⟨comps', geoms', h1, h2, h3⟩ := fluorescence_ok h
      rw [hx] at h1
      rw [hy] at h2
      cases h1
      cases h2
      exact h3
    | _ =>
      refine ⟨envOf pf fuel L srt c [] [], _, env_regular hL, env_consistent hL, env_linear hL, env_names hL,
        rfl, fun _ => rfl, fun _ _ => rfl, ?_⟩
      intro o b reqs r h
      obtain ⟨comps', geoms', h1, h2, h3⟩ := fluorescence_ok h
      rw [hy] at h2
      cases h2
  | _ =>
    refine ⟨envOf pf fuel L srt c [] [], _, env_regular hL, env_consistent hL, env_linear hL, env_names hL,
      rfl, fun _ => rfl, fun _ _ => rfl, ?_⟩
    intro o b reqs r h
    obtain ⟨comps', geoms', h1, h2, h3⟩ := fluorescence_ok h
    rw [hx] at h1
    cases h1

end filters

/-! ## The properties of the calls -/

section api

variable {R : Type} (pf : String → Outcome (SMap String ℝ)) (fuel : Nat) (L : Library ℝ)
  (srt : List (String × ℝ) → List (String × ℝ)) (c : Config ℝ R) (o : Options ℝ) (g : Bool)

/-- C45 for a configuration and a library: a line and its escape peaks have together the rate that the line has without
escape. -/
theorem C45_api (hL : SoundLibrary pf fuel L) (hd : o.secondary > 1 → 0 ≤ c.detector.intensityThreshold) (b : Beam ℝ)
    (reqs : List (Outcome Request)) (r : Result ℝ) (h : fluorescence pf fuel L srt c o g b reqs = .ok r)
    (k : String) (i : Nat) (t : Str) (ht : ' ' ∉ t) (l : Leaf ℝ) (hl : leaf? r k i t = some l) :
    l.rate + ((peaksOf (linesOf r k i) t).map (fun e => e.2.rate)).sum =
      (l.primary + l.secondary + l.tertiary) * l.efficiency := by
  obtain ⟨env, mix, h1, h2, h3, h4, -, -, -, h5⟩ := fluorescence_env (c := c) srt hL g
  exact C45_conservation env h1 o (fun hs => h4 (hd hs)) reqs _ r (h5 _ _ _ _ h) k i t ht l hl

/-- C45, the escape peaks are those of the detector: each gets its fraction of the line, the line keeps the rest. -/
theorem C45_api_shares (hL : SoundLibrary pf fuel L) (hd : o.secondary > 1 → 0 ≤ c.detector.intensityThreshold)
    (b : Beam ℝ) (reqs : List (Outcome Request)) (r : Result ℝ) (h : fluorescence pf fuel L srt c o g b reqs = .ok r)
    (k : String) (i : Nat) (t : Str) (ht : ' ' ∉ t) (l : Leaf ℝ) (hl : leaf? r k i t = some l)
    (hdet : c.detector.layer.hasMaterial = true ∨ c.detector.layer.materialName.length > 0) :
    ∃ esc, detectorEscape pf fuel L c.detector.params l.energy = .ok esc ∧
      l.rate = (1 - (esc.map (fun e => e.2.rate)).sum) * ((l.primary + l.secondary + l.tertiary) * l.efficiency) ∧
      (∀ n e, SMap.find? esc n = some e → ∃ p, leaf? r k i (t ++ ' ' :: n.toList) = some p ∧ p.energy = e.energy ∧
        p.rate = e.rate * ((l.primary + l.secondary + l.tertiary) * l.efficiency)) ∧
      (∀ n, SMap.find? esc n = none → leaf? r k i (t ++ ' ' :: n.toList) = none) := by
  obtain ⟨env, mix, h1, h2, h3, h4, h6, h7, -, h5⟩ := fluorescence_env (c := c) srt hL g
  obtain ⟨esc, e1, e2, e3, e4⟩ := C45_shares env h1 o (fun hs => h4 (hd hs)) reqs _ r (h5 _ _ _ _ h) k i t ht l hl
    (by rw [h6]; rcases hdet with hh | hh <;> simp [hh])
  rw [h7] at e1
  refine ⟨esc, e1, e2, ?_, e4⟩
  intro n e hn
  obtain ⟨p, p1, p2, p3, -⟩ := e3 n e hn
  exact ⟨p, p1, p2, p3⟩

/-- C47 for a configuration and a library. -/
theorem C47_api (hL : SoundLibrary pf fuel L) (hd : o.secondary > 1 → 0 ≤ c.detector.intensityThreshold) (b : Beam ℝ)
    (reqs : List (Outcome Request)) (r : Result ℝ) (h : fluorescence pf fuel L srt c o g b reqs = .ok r)
    (k : String) (i : Nat) (t : Str) (ht : ' ' ∉ t) (l : Leaf ℝ) (hl : leaf? r k i t = some l) :
    l.secondary = (l.contrib.map Prod.snd).sum ∧ (l.contrib.map Prod.fst).Nodup ∧
    (c.detector.layer.hasMaterial = false → c.detector.layer.materialName = "" →
      l.rate = (l.primary + l.secondary + l.tertiary) * l.efficiency) := by
  obtain ⟨env, mix, h1, h2, h3, h4, h6, -, -, h5⟩ := fluorescence_env (c := c) srt hL g
  obtain ⟨e1, e2, e3⟩ := C47_accounted env h1 o (fun hs => h4 (hd hs)) reqs _ r (h5 _ _ _ _ h) k i t ht l hl
  refine ⟨e1, e2, fun a1 a2 => e3 ?_⟩
  rw [h6, a1, a2]
  decide

/-- C46 for a configuration and a library: a beam gives the sum of what its rays give separately. The excitation is
additive for all options, the rates as long as tertiary excitation is not asked for. -/
theorem C46_api_additive (hL : SoundLibrary pf fuel L) (reqs : List Request)
    (hp : ∀ q ∈ reqs, ' ' ∉ q.element.toList) (b : Beam ℝ) (hb : b.rays ≠ []) (r : Result ℝ)
    (h : fluorescence pf fuel L srt c o g b (reqs.map .ok) = .ok r) (rs : List (Result ℝ))
    (hrs : List.Forall₂ (fun ray r' => fluorescence pf fuel L srt c o g { b with rays := [ray] } (reqs.map .ok) = .ok r')
      b.rays rs) (k : String) (i : Nat) (u : Str) :
    excitation (leaf? r k i u) = (rs.map (fun r' => excitation (leaf? r' k i u))).sum ∧
    (o.secondary ≤ 1 → rateOf (leaf? r k i u) = (rs.map (fun r' => rateOf (leaf? r' k i u))).sum) := by
  obtain ⟨env, mix, h1, h2, h3, h4, -, -, -, h5⟩ := fluorescence_env (c := c) srt hL g
  refine C46_additive env mix h2 h1 o reqs hp _ r (h5 _ _ _ _ h) rs ?_ k i u
  have hlen : ¬ b.rays.length < 1 := by
    cases hr : b.rays with
    | nil => exact absurd hr hb
    | cons _ _ => simp
  unfold usedBeam
  rw [if_neg hlen, List.map_map]
  clear h hb hlen
  generalize b.rays = rays at hrs
  induction hrs with
  | nil => exact List.Forall₂.nil
  | cons a _ ih => exact List.Forall₂.cons (h5 _ _ _ _ a) ih

/-- C46, the order of the rays does not matter. -/
theorem C46_api_order (hL : SoundLibrary pf fuel L) (reqs : List Request) (hp : ∀ q ∈ reqs, ' ' ∉ q.element.toList)
    (b b' : Beam ℝ) (hb : b.rays ≠ []) (hperm : b.rays.Perm b'.rays) (r r' : Result ℝ)
    (h : fluorescence pf fuel L srt c o g b (reqs.map .ok) = .ok r)
    (h' : fluorescence pf fuel L srt c o g b' (reqs.map .ok) = .ok r') (k : String) (i : Nat) (u : Str) :
    excitation (leaf? r k i u) = excitation (leaf? r' k i u) ∧
    (o.secondary ≤ 1 → rateOf (leaf? r k i u) = rateOf (leaf? r' k i u)) := by
  obtain ⟨env, mix, h1, h2, h3, h4, -, -, -, h5⟩ := fluorescence_env (c := c) srt hL g
  refine C46_order env mix h2 h1 o reqs hp _ _ ?_ r r' (h5 _ _ _ _ h) (h5 _ _ _ _ h') k i u
  have hlen : ¬ b.rays.length < 1 := by
    cases hr : b.rays with
    | nil => exact absurd hr hb
    | cons _ _ => simp
  unfold usedBeam
  rw [if_neg hlen, if_neg (by rw [← hperm.length_eq]; exact hlen)]
  exact (hperm.map _).map _

/-- C46, `k` times the weights give `k` times the excitation and the rates. -/
theorem C46_api_scale (hL : SoundLibrary pf fuel L) (reqs : List Request) (hp : ∀ q ∈ reqs, ' ' ∉ q.element.toList)
    (m : ℝ) (hm : 0 < m) (b b' : Beam ℝ) (hb : b.rays ≠ [])
    (hb' : b'.rays = b.rays.map (fun ray => { ray with weight := m * ray.weight })) (r r' : Result ℝ)
    (h : fluorescence pf fuel L srt c o g b (reqs.map .ok) = .ok r)
    (h' : fluorescence pf fuel L srt c o g b' (reqs.map .ok) = .ok r') (k : String) (i : Nat) (u : Str) :
    excitation (leaf? r' k i u) = m • excitation (leaf? r k i u) ∧
    (o.secondary ≤ 1 → rateOf (leaf? r' k i u) = m * rateOf (leaf? r k i u)) := by
  obtain ⟨env, mix, h1, h2, h3, h4, -, -, -, h5⟩ := fluorescence_env (c := c) srt hL g
  refine C46_scale env mix h2 h1 o reqs hp m hm (h3 m) _ r r' (h5 _ _ _ _ h) ?_ k i u
  have := h5 _ _ _ _ h'
  rw [← this]
  have hlen : ¬ b.rays.length < 1 := by
    cases hr : b.rays with
    | nil => exact absurd hr hb
    | cons _ _ => simp
  unfold usedBeam
  rw [if_neg hlen, if_neg (by rw [hb', List.length_map]; exact hlen), hb', List.map_map, List.map_map, List.map_map,
    List.map_map]
  congr 1
  apply List.map_congr_left
  intro ray _
  simp only [behind, Function.comp, Prod.mk.injEq, true_and]
  ring

/-- C46, a ray below the excitation thresholds of the requested families contributes nothing. -/
theorem C46_api_below_threshold (hL : SoundLibrary pf fuel L) (reqs : List Request)
    (hp : ∀ q ∈ reqs, ' ' ∉ q.element.toList) (b b' : Beam ℝ) (pre post : List (Ray ℝ)) (ray : Ray ℝ)
    (hb : b.rays = pre ++ ray :: post) (hb' : b'.rays = pre ++ post) (hne : b'.rays ≠ [])
    (hlow : ∀ q ∈ reqs, ∀ thr,
      Xrf.getEnergyThreshold L q.element (String.ofList ((actualFamily q.family).toList.take 1)) = .ok thr → ray.energy < thr)
    (r r' : Result ℝ) (h : fluorescence pf fuel L srt c o g b (reqs.map .ok) = .ok r)
    (h' : fluorescence pf fuel L srt c o g b' (reqs.map .ok) = .ok r') (k : String) (i : Nat) (u : Str) :
    excitation (leaf? r k i u) = excitation (leaf? r' k i u) ∧
    (o.secondary ≤ 1 → rateOf (leaf? r k i u) = rateOf (leaf? r' k i u)) := by
  obtain ⟨env, mix, h1, h2, h3, h4, -, -, h6, h5⟩ := fluorescence_env (c := c) srt hL g
  have e1 := h5 _ _ _ _ h
  have e2 := h5 _ _ _ _ h'
  have hlen : ¬ b'.rays.length < 1 := by
    cases hr : b'.rays with
    | nil => exact absurd hr hne
    | cons _ _ => simp
  unfold usedBeam at e1 e2
  rw [if_neg (by rw [hb]; simp), hb, List.map_append, List.map_append, List.map_cons, List.map_cons] at e1
  rw [if_neg hlen, hb', List.map_append, List.map_append] at e2
  refine C46_below_threshold env mix h2 h1 o reqs hp _ ?_ _ _ r r' e1 e2 k i u
  intro q hq thr ht
  unfold thresholdFor at ht
  split at ht
  · cases ht
  · rw [h6] at ht
    exact hlow q hq thr ht

/-- C66, the part that holds: also with tertiary excitation, the primary and secondary excitation factors of a beam are
the sums of the ones of its rays. Missing: the rates, which are not additive (`C66_tertiary_rates_violated`). -/
theorem C66_excitation_partial (hL : SoundLibrary pf fuel L) (reqs : List Request)
    (hp : ∀ q ∈ reqs, ' ' ∉ q.element.toList) (_ : o.secondary > 1) (b : Beam ℝ) (hb : b.rays ≠ []) (r : Result ℝ)
    (h : fluorescence pf fuel L srt c o g b (reqs.map .ok) = .ok r) (rs : List (Result ℝ))
    (hrs : List.Forall₂ (fun ray r' => fluorescence pf fuel L srt c o g { b with rays := [ray] } (reqs.map .ok) = .ok r')
      b.rays rs) (k : String) (i : Nat) (u : Str) :
    excitation (leaf? r k i u) = (rs.map (fun r' => excitation (leaf? r' k i u))).sum :=
  (C46_api_additive pf fuel L srt c o g hL reqs hp b hb r h rs hrs k i u).1

/-- C99 for a configuration and a library: several requests with different keys are answered as each of them alone. -/
theorem C99_api_partial (hL : SoundLibrary pf fuel L) (reqs : List Request) (hp : ∀ q ∈ reqs, ' ' ∉ q.element.toList)
    (hnd : (reqs.map (fun q => q.element ++ " " ++ q.family)).Nodup) (req : Request) (hm : req ∈ reqs) (b : Beam ℝ)
    (r r' : Result ℝ) (h : fluorescence pf fuel L srt c o g b (reqs.map .ok) = .ok r)
    (h' : fluorescence pf fuel L srt c o g b [.ok req] = .ok r') (i : Nat) (u : Str) :
    excitation (leaf? r (req.element ++ " " ++ req.family) i u) =
      excitation (leaf? r' (req.element ++ " " ++ req.family) i u) ∧
    (o.secondary ≤ 1 → rateOf (leaf? r (req.element ++ " " ++ req.family) i u) =
      rateOf (leaf? r' (req.element ++ " " ++ req.family) i u)) := by
  obtain ⟨env, mix, h1, h2, h3, h4, -, -, -, h5⟩ := fluorescence_env (c := c) srt hL g
  exact C99_union_partial env mix h2 h1 o reqs hp hnd req hm _ r r' (h5 _ _ _ _ h) (h5 _ _ _ _ h') i u

end api

/-! ## A library that makes sense -/

/-- A K shell with one line. -/
noncomputable def exShell : Shell ℝ :=
  { name := "K".toList, mainIndex := 1, subIndex := 0, constants := [("omegaK".toList, 1 / 2)], radiative := [],
    nonradiative := [], auger := [], ck := [], fluorescence := [("KL3".toList, 1)] }

/-- An element with it. -/
noncomputable def exElement : Element ℝ :=
  { atomicNumber := 26, binding := [("K".toList, 7), ("L3".toList, 1)], muEnergy := [1, 10],
    mu := some ⟨[1, 1], [1, 1], [0, 0], [5, 5], [7, 7]⟩, partialE := [], partialV := [], cacheOn := false, muCache := [],
    excCache := [], shells := [("K".toList, exShell)], cascadeOn := false, cascadeCache := [] }

/-- A library with it. -/
noncomputable def exLibrary : Library ℝ :=
  { dict := [("Fe", 0)], elements := [⟨"Fe", 56, exElement⟩], materials := [], escapeOn := false, escape := [],
    escapeKey := ⟨[], 0, 0, 0, 45, 0⟩ }

theorem exElement_shell {k : Str} {s : Shell ℝ} (h : exElement.shells.find? k = some s) : k = "K".toList ∧ s = exShell := by
  have := SMap.mem_of_find? h
  simp only [exElement, List.mem_singleton, Prod.mk.injEq] at this
  exact this

theorem exShell_line {t : Str} {r : ℝ} (h : (t, r) ∈ exShell.fluorescence) : t = "KL3".toList := by
  simp only [exShell, List.mem_singleton, Prod.mk.injEq] at h
  exact h.1

example (pf : String → Outcome (SMap String ℝ)) (fuel : Nat) : SoundLibrary pf fuel exLibrary where
  elements := by
    intro e he
    simp only [exLibrary, List.mem_singleton] at he
    subst he
    exact {
      fresh := Or.inl rfl
      cached := Element.cacheTrue_empty rfl rfl
      disjoint := fun k s k' s' t r r' h1 h2 _ _ => by
        rw [(exElement_shell h1).1, (exElement_shell h2).1]
      blank := fun k s t r h1 h2 => by
        rw [(exElement_shell h1).2] at h2
        rw [exShell_line h2]; decide
      esc := fun k s t r h1 h2 => by
        rw [(exElement_shell h1).2] at h2
        rw [exShell_line h2]; decide
      binding := fun k b h => by
        have := SMap.mem_of_find? h
        simp only [exElement, List.mem_cons, Prod.mk.injEq, List.not_mem_nil, or_false] at this
        rcases this with ⟨-, rfl⟩ | ⟨-, rfl⟩ <;> norm_num }
  escape := Library.escapeTrue_empty pf fuel _ rfl

end Multilayer
end Fisx
