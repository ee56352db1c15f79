import Verif.LibraryPeaks
import Verif.ElementInterp
import Mathlib.Analysis.SpecialFunctions.Trigonometric.Basic
import Mathlib.Analysis.Real.Pi.Bounds

/-!
# Escape peaks and their cache: C33, C34
-/

set_option linter.unusedSectionVars false

namespace Fisx
namespace Library

open Outcome

variable {K : Type} [Field K] [LinearOrder K] [IsStrictOrderedRing K] [Trans K] [Trig K]

/-! ### C33: specification -/

/-- What the peak `(name, line)` is: some line of energy `f.energy` of some element of the detector escapes, with more
than the threshold of photons per incident photon (the model of the escape probability is `escapeRate`). -/
structure EscapePeak (pf : String → Outcome (SMap String K)) (L : Library K) (d : Nat) (key : EscapeKey K) (E : K)
    (mi : Mix K) (name : String) (line : Line K) (n : String) (t : Str) (f : Factor K) (mf : Mix K) : Prop where
  incident : L.mixMu pf d key.composition E false = .ok mi
  element : ∃ w e lines, (n, w) ∈ key.composition ∧ L.getElement n = .ok e ∧ e.data.getFactors E w = .ok lines
    ∧ (t, f) ∈ lines
  fluorescence : L.mixMu pf d key.composition f.energy false = .ok mf
  name_eq : name = n ++ "_" ++ String.ofList t ++ "esc"
  energy_eq : line.energy = E - f.energy
  above : key.intensityThreshold < escapeRate (sinAlpha key.alphaIn) mi.total mf.total f.rate
  rate_eq : line.rate = if key.thickness > 0 then
      escapeRate (sinAlpha key.alphaIn) mi.total mf.total f.rate
        / intrinsicEfficiency mi.total key.thickness (sinAlpha key.alphaIn)
    else escapeRate (sinAlpha key.alphaIn) mi.total mf.total f.rate

/-! ### C33: proof -/

theorem escapeLines_sound (pf : String → Outcome (SMap String K)) (L : Library K) (d : Nat) (key : EscapeKey K)
    (E mu : K) (n : String) (lines : List (Str × Factor K)) : ∀ (acc r : SMap String (Line K)),
    escapeLines pf L d key E mu n lines acc = .ok r → ∀ p ∈ r, p ∈ acc ∨ ∃ t f mf, (t, f) ∈ lines
      ∧ L.mixMu pf d key.composition f.energy false = .ok mf
      ∧ escapeRate (sinAlpha key.alphaIn) mu mf.total f.rate > key.intensityThreshold
      ∧ p = (escapeName n t, (⟨E - f.energy, (if key.thickness > 0 then
            (escapeRate (sinAlpha key.alphaIn) mu mf.total f.rate
              / intrinsicEfficiency mu key.thickness (sinAlpha key.alphaIn))
          else escapeRate (sinAlpha key.alphaIn) mu mf.total f.rate)⟩ : Line K)) := by
  induction lines with
  | nil =>
    intro acc r h p hp
    injection h with h
    subst h
    exact Or.inl hp
  | cons l lines ih =>
    intro acc r h p hp
    obtain ⟨t, f⟩ := l
    unfold escapeLines at h
    obtain ⟨mf, hmf, h⟩ := bind_eq_ok.1 h
    rcases ih _ _ h p hp with hp | ⟨t', f', mf', h1, h2, h3, h4⟩
    · split at hp
      · rename_i hr
        rcases SMap.mem_insert hp with hp | hp
        · exact Or.inr ⟨t, f, mf, by simp, hmf, hr, hp⟩
        · exact Or.inl hp
      · exact Or.inl hp
    · exact Or.inr ⟨t', f', mf', List.mem_cons_of_mem _ h1, h2, h3, h4⟩

theorem insert_covers {V : Type} (m : SMap String V) (k : String) (v : V) (n : String)
    (h : n = k ∨ ∃ q ∈ m, q.1 = n) : ∃ q ∈ m.insert k v, q.1 = n := by
  by_cases hkn : k = n
  · have h : (m.insert k v).find? n = some v := by rw [SMap.find?_insert, if_pos hkn]
    exact ⟨_, SMap.mem_of_find? h, rfl⟩
  · have hf : m.find? n ≠ none := by
      intro hh
      rw [SMap.find?_eq_none_iff] at hh
      rcases h with h | ⟨q, hq, hqn⟩
      · exact hkn h.symm
      · exact hh q hq hqn
    obtain ⟨y, hy⟩ := Option.ne_none_iff_exists'.1 hf
    have h : (m.insert k v).find? n = some y := by rw [SMap.find?_insert, if_neg hkn, hy]
    exact ⟨_, SMap.mem_of_find? h, rfl⟩

theorem escapeLines_complete (pf : String → Outcome (SMap String K)) (L : Library K) (d : Nat) (key : EscapeKey K)
    (E mu : K) (n : String) (lines : List (Str × Factor K)) : ∀ (acc r : SMap String (Line K)),
    escapeLines pf L d key E mu n lines acc = .ok r →
      (acc.Sorted → r.Sorted) ∧ (∀ q ∈ acc, ∃ p ∈ r, p.1 = q.1) ∧
      (∀ t f, (t, f) ∈ lines → ∃ mf, L.mixMu pf d key.composition f.energy false = .ok mf
        ∧ (escapeRate (sinAlpha key.alphaIn) mu mf.total f.rate > key.intensityThreshold → ∃ p ∈ r, p.1 = escapeName n t)) := by
  induction lines with
  | nil =>
    intro acc r h
    injection h with h
    subst h
    exact ⟨id, fun q hq => ⟨q, hq, rfl⟩, by simp⟩
  | cons l lines ih =>
    intro acc r h
    obtain ⟨t, f⟩ := l
    unfold escapeLines at h
    obtain ⟨mf, hmf, h⟩ := bind_eq_ok.1 h
    obtain ⟨h1, h2, h3⟩ := ih _ _ h
    refine ⟨?_, ?_, ?_⟩
    · intro hs
      apply h1
      split
      · exact SMap.insert_sorted hs _ _
      · exact hs
    · intro q hq
      split at h2
      · obtain ⟨p, hp, hpq⟩ := insert_covers acc (escapeName n t) _ q.1 (Or.inr ⟨q, hq, rfl⟩)
        obtain ⟨p', hp', hpp⟩ := h2 p hp
        exact ⟨p', hp', hpp.trans hpq⟩
      · exact h2 q hq
    · intro t' f' hm
      rcases List.mem_cons.1 hm with hm | hm
      · injection hm with ht hf
        subst ht hf
        refine ⟨mf, hmf, ?_⟩
        intro hr
        rw [if_pos hr] at h2
        obtain ⟨p, hp, hpq⟩ := insert_covers acc (escapeName n t') _ (escapeName n t') (Or.inl rfl)
        obtain ⟨p', hp', hpp⟩ := h2 p hp
        exact ⟨p', hp', hpp.trans hpq⟩
      · exact h3 t' f' hm

theorem escapeElements_sound (pf : String → Outcome (SMap String K)) (L : Library K) (d : Nat) (key : EscapeKey K)
    (E : K) (mi : Mix K) (hmi : L.mixMu pf d key.composition E false = .ok mi)
    (items : List (String × K)) (hsub : ∀ e ∈ items, e ∈ key.composition) : ∀ (acc r : SMap String (Line K)),
    escapeElements pf L d key E mi.total items acc = .ok r → ∀ p ∈ r, p ∈ acc ∨
      ∃ n t f mf, EscapePeak pf L d key E mi p.1 p.2 n t f mf := by
  induction items with
  | nil =>
    intro acc r h p hp
    injection h with h
    subst h
    exact Or.inl hp
  | cons i items ih =>
    intro acc r h p hp
    obtain ⟨n, w⟩ := i
    unfold escapeElements at h
    obtain ⟨e, he, h⟩ := bind_eq_ok.1 h
    obtain ⟨lines, hl, h⟩ := bind_eq_ok.1 h
    obtain ⟨acc', ha, h⟩ := bind_eq_ok.1 h
    rcases ih (fun e he => hsub e (List.mem_cons_of_mem _ he)) _ _ h p hp with hp | hp
    · rcases escapeLines_sound pf L d key E mi.total n lines acc acc' ha p hp with hp | ⟨t, f, mf, h1, h2, h3, h4⟩
      · exact Or.inl hp
      · exact Or.inr ⟨n, t, f, mf, hmi, ⟨w, e, lines, hsub (n, w) (by simp), he, hl, h1⟩, h2, by rw [h4]; rfl, by rw [h4],
          h3, by rw [h4]⟩
    · exact Or.inr hp

theorem escapeElements_complete (pf : String → Outcome (SMap String K)) (L : Library K) (d : Nat) (key : EscapeKey K)
    (E : K) (mu : K) (items : List (String × K)) : ∀ (acc r : SMap String (Line K)),
    escapeElements pf L d key E mu items acc = .ok r →
      (acc.Sorted → r.Sorted) ∧ (∀ q ∈ acc, ∃ p ∈ r, p.1 = q.1) ∧
      ∀ n w, (n, w) ∈ items → ∃ e lines, L.getElement n = .ok e ∧ e.data.getFactors E w = .ok lines ∧
        ∀ t f, (t, f) ∈ lines → ∃ mf, L.mixMu pf d key.composition f.energy false = .ok mf
          ∧ (escapeRate (sinAlpha key.alphaIn) mu mf.total f.rate > key.intensityThreshold →
              ∃ p ∈ r, p.1 = escapeName n t) := by
  induction items with
  | nil =>
    intro acc r h
    injection h with h
    subst h
    exact ⟨id, fun q hq => ⟨q, hq, rfl⟩, by simp⟩
  | cons i items ih =>
    intro acc r h
    obtain ⟨n, w⟩ := i
    unfold escapeElements at h
    obtain ⟨e, he, h⟩ := bind_eq_ok.1 h
    obtain ⟨lines, hl, h⟩ := bind_eq_ok.1 h
    obtain ⟨acc', ha, h⟩ := bind_eq_ok.1 h
    obtain ⟨h1, h2, h3⟩ := ih _ _ h
    obtain ⟨g1, g2, g3⟩ := escapeLines_complete pf L d key E mu n lines acc acc' ha
    refine ⟨fun hs => h1 (g1 hs), ?_, ?_⟩
    · intro q hq
      obtain ⟨p, hp, hpq⟩ := g2 q hq
      obtain ⟨p', hp', hpp⟩ := h2 p hp
      exact ⟨p', hp', hpp.trans hpq⟩
    · intro n' w' hm
      rcases List.mem_cons.1 hm with hm | hm
      · injection hm with hn hw
        subst hn hw
        refine ⟨e, lines, he, hl, ?_⟩
        intro t f htf
        obtain ⟨mf, hmf, hr⟩ := g3 t f htf
        refine ⟨mf, hmf, fun hgt => ?_⟩
        obtain ⟨p, hp, hpn⟩ := hr hgt
        obtain ⟨p', hp', hpp⟩ := h2 p hp
        exact ⟨p', hp', hpp.trans hpn⟩
      · exact h3 n' w' hm

/-- C33: every peak returned is the escape of a line of an element of the detector, its energy is
that of the incoming photon less the one of the line, and its rate (per incident photon) is above the intensity
threshold; each name appears once. Missing: the number of peaks and their merging, see `C91_thresholds_ignored_violated`. -/
theorem C33_peaks (pf : String → Outcome (SMap String K)) (L : Library K) (d : Nat) (key : EscapeKey K) (E : K)
    (r : SMap String (Line K)) (h : L.computeEscape pf d key E = .ok r) :
    (r.map Prod.fst).Nodup ∧ ∀ p ∈ r, ∃ mi n t f mf, EscapePeak pf L d key E mi p.1 p.2 n t f mf := by
  unfold computeEscape at h
  obtain ⟨mi, hmi, h⟩ := bind_eq_ok.1 h
  refine ⟨SMap.keys_nodup ((escapeElements_complete pf L d key E mi.total _ _ _ h).1 SMap.sorted_nil), ?_⟩
  intro p hp
  rcases escapeElements_sound pf L d key E mi hmi _ (fun e he => he) _ _ h p hp with hp | ⟨n, t, f, mf, hh⟩
  · simp at hp
  · exact ⟨mi, n, t, f, mf, hh⟩

/-- C33: no line above the threshold is forgotten. -/
theorem C33_complete (pf : String → Outcome (SMap String K)) (L : Library K) (d : Nat) (key : EscapeKey K) (E : K)
    (r : SMap String (Line K)) (h : L.computeEscape pf d key E = .ok r) (mi : Mix K)
    (hmi : L.mixMu pf d key.composition E false = .ok mi) (n : String) (w : K) (hn : (n, w) ∈ key.composition)
    (e : LibElement K) (he : L.getElement n = .ok e) (lines : SMap Str (Factor K))
    (hl : e.data.getFactors E w = .ok lines) (t : Str) (f : Factor K) (hf : (t, f) ∈ lines) (mf : Mix K)
    (hmf : L.mixMu pf d key.composition f.energy false = .ok mf)
    (hr : key.intensityThreshold < escapeRate (sinAlpha key.alphaIn) mi.total mf.total f.rate) :
    ∃ line, (n ++ "_" ++ String.ofList t ++ "esc", line) ∈ r := by
  unfold computeEscape at h
  obtain ⟨mi', hmi', h⟩ := bind_eq_ok.1 h
  rw [hmi] at hmi'
  injection hmi' with hmi'
  subst hmi'
  obtain ⟨_, _, h3⟩ := escapeElements_complete pf L d key E mi.total _ _ _ h
  obtain ⟨e', lines', he', hl', h4⟩ := h3 n w hn
  rw [he] at he'
  injection he' with he'
  subst he'
  rw [hl] at hl'
  injection hl' with hl'
  subst hl'
  obtain ⟨mf', hmf', h5⟩ := h4 t f hf
  rw [hmf] at hmf'
  injection hmf' with hmf'
  subst hmf'
  obtain ⟨p, hp, hpn⟩ := h5 hr
  exact ⟨p.2, by rw [show n ++ "_" ++ String.ofList t ++ "esc" = p.1 from hpn.symm]; exact hp⟩

/-- C33: the energy of an escape peak is below that of the incoming photon (the lines have positive energies). -/
theorem C33_energy_below (pf : String → Outcome (SMap String K)) (L : Library K) (d : Nat) (key : EscapeKey K) (E : K)
    (r : SMap String (Line K)) (h : L.computeEscape pf d key E = .ok r)
    (hpos : ∀ n w e lines t f, (n, w) ∈ key.composition → L.getElement n = .ok e → e.data.getFactors E w = .ok lines →
      (t, f) ∈ lines → 0 < f.energy) : ∀ p ∈ r, p.2.energy < E := by
  intro p hp
  obtain ⟨mi, n, t, f, mf, hh⟩ := (C33_peaks pf L d key E r h).2 p hp
  obtain ⟨w, e, lines, h1, h2, h3, h4⟩ := hh.element
  have := hpos n w e lines t f h1 h2 h3 h4
  rw [hh.energy_eq]
  linarith

theorem escapeLines_key (pf : String → Outcome (SMap String K)) (L : Library K) (d : Nat) (key key' : EscapeKey K)
    (hc : key'.composition = key.composition) (hi : key'.intensityThreshold = key.intensityThreshold)
    (ha : key'.alphaIn = key.alphaIn) (ht : key'.thickness = key.thickness)
    (E mu : K) (n : String) (lines : List (Str × Factor K)) (acc : SMap String (Line K)) :
    escapeLines pf L d key' E mu n lines acc = escapeLines pf L d key E mu n lines acc := by
  induction lines generalizing acc with
  | nil => rfl
  | cons l lines ih =>
    unfold escapeLines
    simp only [hc, hi, ha, ht, ih]

theorem escapeElements_key (pf : String → Outcome (SMap String K)) (L : Library K) (d : Nat) (key key' : EscapeKey K)
    (hc : key'.composition = key.composition) (hi : key'.intensityThreshold = key.intensityThreshold)
    (ha : key'.alphaIn = key.alphaIn) (ht : key'.thickness = key.thickness)
    (E mu : K) (items : List (String × K)) (acc : SMap String (Line K)) :
    escapeElements pf L d key' E mu items acc = escapeElements pf L d key E mu items acc := by
  induction items generalizing acc with
  | nil => rfl
  | cons l lines ih =>
    unfold escapeElements
    simp only [escapeLines_key pf L d key key' hc hi ha ht, ih]

/-- C91: what the code does with the energy threshold and with the maximum number of peaks: nothing. -/
theorem C91_thresholds_ignored_violated (pf : String → Outcome (SMap String K)) (L : Library K) (d : Nat) (key : EscapeKey K)
    (e' : K) (n' : Int) (E : K) :
    L.computeEscape pf d { key with energyThreshold := e', nThreshold := n' } E = L.computeEscape pf d key E := by
  unfold computeEscape
  congr 1
  funext mi
  exact escapeElements_key pf L d key { key with energyThreshold := e', nThreshold := n' } rfl rfl rfl rfl E _ _ _

/-! ### C34: the cache -/

theorem comp_frame (pf : String → Outcome (SMap String K)) (L M : Library K) (hd : M.dict = L.dict)
    (he : M.elements = L.elements) (hm : M.materials = L.materials) (d : Nat) : ∀ n, M.comp pf d n = L.comp pf d n := by
  have hmass : ∀ f, M.masses f = L.masses f := by
    intro f
    induction f with
    | nil => rfl
    | cons e f ih =>
      obtain ⟨n, x⟩ := e
      unfold masses
      rw [hd, he, ih]
  have hform : ∀ n, M.formula pf n = L.formula pf n := by
    intro n
    unfold formula
    simp only [hmass]
  have hlook : ∀ n, M.lookup n = L.lookup n := by
    intro n
    unfold lookup
    rw [hm]
  induction d with
  | zero => intro n; rfl
  | succ d ih =>
    intro n
    unfold comp
    rw [hform, hlook]
    have : comp pf M d = comp pf L d := funext ih
    rw [this]

theorem mixMu_frame (pf : String → Outcome (SMap String K)) (L M : Library K) (hd : M.dict = L.dict)
    (he : M.elements = L.elements) (hm : M.materials = L.materials) (d : Nat) (input : SMap String K) (x : K) (b : Bool) :
    M.mixMu pf d input x b = L.mixMu pf d input x b := by
  have ha : ∀ items acc t, amountsLoop pf M d items acc t = amountsLoop pf L d items acc t := by
    intro items
    induction items with
    | nil => intro acc t; rfl
    | cons e items ih =>
      intro acc t
      obtain ⟨n, w⟩ := e
      unfold amountsLoop
      rw [comp_frame pf L M hd he hm]
      simp only [ih]
  have hs : ∀ t items acc, mixSum M t x items acc = mixSum L t x items acc := by
    intro t items
    induction items with
    | nil => intro acc; rfl
    | cons e items ih =>
      intro acc
      obtain ⟨n, w⟩ := e
      unfold mixSum
      rw [hd, he]
      simp only [ih]
  unfold mixMu amounts
  simp only [ha, hs]

theorem getElement_frame (L M : Library K) (hd : M.dict = L.dict) (he : M.elements = L.elements) (n : String) :
    M.getElement n = L.getElement n := by
  unfold getElement isElementNameDefined
  rw [hd, he]

theorem computeEscape_frame (pf : String → Outcome (SMap String K)) (L M : Library K) (hd : M.dict = L.dict)
    (he : M.elements = L.elements) (hm : M.materials = L.materials) (d : Nat) (key : EscapeKey K) (E : K) :
    M.computeEscape pf d key E = L.computeEscape pf d key E := by
  have hl : ∀ mu n lines acc, escapeLines pf M d key E mu n lines acc = escapeLines pf L d key E mu n lines acc := by
    intro mu n lines
    induction lines with
    | nil => intro acc; rfl
    | cons l lines ih =>
      intro acc
      unfold escapeLines
      simp only [mixMu_frame pf L M hd he hm, ih]
  have hel : ∀ mu items acc, escapeElements pf M d key E mu items acc = escapeElements pf L d key E mu items acc := by
    intro mu items
    induction items with
    | nil => intro acc; rfl
    | cons l lines ih =>
      intro acc
      unfold escapeElements
      simp only [getElement_frame L M hd he, hl, ih]
  unfold computeEscape
  simp only [mixMu_frame pf L M hd he hm, hel]

/-- What is cached is what would be computed. -/
def EscapeTrue (pf : String → Outcome (SMap String K)) (fuel : Nat) (L : Library K) : Prop :=
  ∀ x r, L.escape.find? x = some r → L.computeEscape pf fuel L.escapeKey x = .ok r

theorem getEscape_true (pf : String → Outcome (SMap String K)) (fuel : Nat) (L : Library K) (h : EscapeTrue pf fuel L)
    (key : EscapeKey K) (x : K) : L.getEscape pf fuel key x = L.computeEscape pf fuel key x := by
  unfold getEscape
  split
  · rename_i hc
    unfold escapeCompatible at hc
    simp only [Bool.and_eq_true, decide_eq_true_eq] at hc
    split
    · rename_i r hr
      rw [hc.2]
      exact (h x r hr).symm
    · rfl
  · rfl

theorem updateEscapeLoop_true (pf : String → Outcome (SMap String K)) (fuel : Nat) (key : EscapeKey K) (es : List K) :
    ∀ L : Library K, (∀ x r, L.escape.find? x = some r → L.computeEscape pf fuel key x = .ok r) →
      EscapeTrue pf fuel L → EscapeTrue pf fuel (updateEscapeLoop pf fuel key es L).2 := by
  induction es with
  | nil => intro L _ h; exact h
  | cons x rest ih =>
    intro L hk ht
    unfold updateEscapeLoop
    split
    · refine ih { L with escapeKey := key } ?_ ?_
      · intro y r hy
        rw [computeEscape_frame pf L { L with escapeKey := key } rfl rfl rfl]
        exact hk y r hy
      · intro y r hy
        rw [computeEscape_frame pf L { L with escapeKey := key } rfl rfl rfl]
        exact hk y r hy
    · split
      · rename_i r hr
        rw [getEscape_true pf fuel L ht] at hr
        have hall : ∀ y s, (L.escape.insert x r).find? y = some s → L.computeEscape pf fuel key y = .ok s := by
          intro y s hy
          rw [SMap.find?_insert] at hy
          split at hy
          · rename_i hxy
            injection hy with hy
            rw [← hxy, hr, hy]
          · exact hk y s hy
        refine ih _ ?_ ?_
        · intro y s hy
          rw [computeEscape_frame pf L { L with escape := L.escape.insert x r, escapeKey := key } rfl rfl rfl]
          exact hall y s hy
        · intro y s hy
          rw [computeEscape_frame pf L { L with escape := L.escape.insert x r, escapeKey := key } rfl rfl rfl]
          exact hall y s hy
      all_goals exact ht

/-- The calls that concern the cache, or are made while it is empty. -/
def Op.Keeps (L : Library K) (op : Op K) : Prop :=
  L.escape = [] ∨ (∃ f, op = .setEscapeCacheEnabled f) ∨ op = .clearEscapeCache ∨ ∃ k es, op = .updateEscapeCache k es

/-- A history in which the data of the library are only changed while the escape cache is empty. -/
def KeepsEscape (pf : String → Outcome (SMap String K)) (fuel : Nat) (L : Library K) : List (Op K) → Prop
  | [] => True
  | op :: rest => Op.Keeps L op ∧ KeepsEscape pf fuel (L.step pf fuel op).2 rest

theorem addMaterial_escape (pf : String → Outcome (SMap String K)) (L : Library K) (n : String) (d t : K) (c : String)
    (f : Bool) : (L.addMaterial pf n d t c f).2.escape = L.escape := by
  have h1 : (L.makeRoom n f).2.escape = L.escape := by
    unfold makeRoom removeMaterial
    dsimp only
    split
    · split
      · rfl
      · split <;> rfl
    · rfl
  unfold addMaterial
  split
  · rename_i L' heq
    rw [heq] at h1
    split
    · dsimp only
      split
      · split
        · unfold setMaterialCompositionMap
          dsimp only
          split <;> exact h1
        · exact h1
      all_goals exact h1
    · exact h1
  · rename_i heq
    rw [heq] at h1
    exact h1

/-- Calls on elements and materials do not touch the cache. -/
theorem step_escape (pf : String → Outcome (SMap String K)) (fuel : Nat) (L : Library K) (op : Op K)
    (h : ∀ k es, op ≠ .updateEscapeCache k es) (h0 : L.escape = []) : (L.step pf fuel op).2.escape = [] := by
  cases op with
  | addElement e =>
    simp only [step, addElement]
    split
    · split <;> exact h0
    · exact h0
  | onElement n o =>
    simp only [step, onElement]
    split
    · split
      · split <;> exact h0
      · exact h0
    · exact h0
  | addMaterialObject m f =>
    simp only [step, addMaterialObject]
    split
    · split <;> exact h0
    · exact h0
  | addMaterial n d t c f => exact (addMaterial_escape pf L n d t c f).trans h0
  | removeMaterial n =>
    simp only [step, removeMaterial]
    split <;> exact h0
  | removeMaterials => exact h0
  | setMaterialComposition n ns as =>
    simp only [step, setMaterialComposition]
    split <;> exact h0
  | setMaterialCompositionMap n c =>
    simp only [step, setMaterialCompositionMap]
    split <;> exact h0
  | setEscapeCacheEnabled f => exact h0
  | clearEscapeCache => rfl
  | updateEscapeCache k es => exact absurd rfl (h k es)

theorem escapeTrue_empty (pf : String → Outcome (SMap String K)) (fuel : Nat) (L : Library K) (h : L.escape = []) :
    EscapeTrue pf fuel L := by
  intro x r hx
  rw [h] at hx
  cases hx

theorem escapeTrue_step (pf : String → Outcome (SMap String K)) (fuel : Nat) (L : Library K) (ht : EscapeTrue pf fuel L)
    (op : Op K) (hop : Op.Keeps L op) : EscapeTrue pf fuel (L.step pf fuel op).2 := by
  by_cases hu : ∃ k es, op = .updateEscapeCache k es
  · obtain ⟨k, es, rfl⟩ := hu
    show EscapeTrue pf fuel (L.updateEscapeCache pf fuel k es).2
    unfold updateEscapeCache
    by_cases hc : L.escapeCompatible k = true
    · rw [if_pos hc]
      refine updateEscapeLoop_true pf fuel k es L ?_ ht
      unfold escapeCompatible at hc
      simp only [Bool.and_eq_true, decide_eq_true_eq] at hc
      rw [hc.2]
      exact ht
    · rw [if_neg hc]
      refine updateEscapeLoop_true pf fuel k es _ ?_ (escapeTrue_empty pf fuel _ rfl)
      intro x r hx
      simp [clearEscapeCache] at hx
  · rcases hop with h0 | ⟨f, rfl⟩ | rfl | h
    · exact escapeTrue_empty pf fuel _ (step_escape pf fuel L op (fun k es h => hu ⟨k, es, h⟩) h0)
    · intro x r hx
      have := computeEscape_frame pf L { L with escapeOn := f } rfl rfl rfl fuel L.escapeKey x
      exact this.trans (ht x r hx)
    · exact escapeTrue_empty pf fuel _ rfl
    · exact absurd h hu

/-- C34, the part that holds: with any parameters, whatever has been cached (with any parameters, for any energies, with
failing calls in between), `getEscape` returns what it computes without the cache, when the data of the library have
only been changed while the cache was empty. Missing: changes of the data with data in the cache, see the violations. -/
theorem C34_cache_transparent_partial (pf : String → Outcome (SMap String K)) (fuel : Nat) (on : Bool) (key0 : EscapeKey K)
    (ops : List (Op K)) (h : KeepsEscape pf fuel (empty on key0) ops) (key : EscapeKey K) (x : K) :
    (run pf fuel (empty on key0) ops).getEscape pf fuel key x
      = (run pf fuel (empty on key0) (ops ++ [.clearEscapeCache])).getEscape pf fuel key x := by
  have key1 : ∀ (L : Library K), EscapeTrue pf fuel L → KeepsEscape pf fuel L ops → EscapeTrue pf fuel (run pf fuel L ops) := by
    clear h
    induction ops with
    | nil => intro L h _; exact h
    | cons op ops ih =>
      intro L h hk
      exact ih _ (escapeTrue_step pf fuel L h op hk.1) hk.2
  have h1 := key1 _ (escapeTrue_empty pf fuel _ rfl) h
  rw [run_append]
  generalize run pf fuel (empty on key0) ops = L at *
  rw [getEscape_true pf fuel L h1]
  show _ = L.clearEscapeCache.getEscape pf fuel key x
  rw [getEscape_true pf fuel _ (escapeTrue_empty pf fuel _ rfl)]
  exact (computeEscape_frame pf L L.clearEscapeCache rfl rfl rfl fuel key x).symm

/-- C34: reading does not depend on the flag or on the parameters used to fill the cache: it is the computation. -/
theorem C34_computation_partial (pf : String → Outcome (SMap String K)) (fuel : Nat) (on : Bool) (key0 : EscapeKey K)
    (ops : List (Op K)) (h : KeepsEscape pf fuel (empty on key0) ops) (key : EscapeKey K) (x : K) :
    (run pf fuel (empty on key0) ops).getEscape pf fuel key x
      = (run pf fuel (empty on key0) ops).computeEscape pf fuel key x := by
  have key1 : ∀ (L : Library K), EscapeTrue pf fuel L → KeepsEscape pf fuel L ops → EscapeTrue pf fuel (run pf fuel L ops) := by
    clear h
    induction ops with
    | nil => intro L h _; exact h
    | cons op ops ih =>
      intro L h hk
      exact ih _ (escapeTrue_step pf fuel L h op hk.1) hk.2
  exact getEscape_true pf fuel _ (key1 _ (escapeTrue_empty pf fuel _ rfl) h) key x

/-! ### C33: the rates, with real numbers -/

/-- `std::sin` of an angle in degrees, with the constant of the code (fisx_elements.cpp:2047). -/
noncomputable instance instTrigReal : Trig ℝ := ⟨fun x => Real.sin (x * (3.141592653589793 / 180))⟩

/-- The escape probability lies between 0 and one half of the fraction of photons giving the line. -/
theorem C33_rate_bounds (s mi mf rate : ℝ) (hs : 0 < s) (hmi : 0 < mi) (hmf : 0 < mf) (hr : 0 < rate) :
    0 < escapeRate s mi mf rate ∧ escapeRate s mi mf rate < rate / (2 * mi) := by
  unfold escapeRate
  dsimp only
  have ht : 0 < s * (mf / mi) := mul_pos hs (div_pos hmf hmi)
  generalize s * (mf / mi) = t at ht
  have hinv : 0 < 1 / t := one_div_pos.2 ht
  have hlog : (Trans.log (1 + 1 / t) : ℝ) < 1 / t := by
    show Real.log (1 + 1 / t) < 1 / t
    have := Real.log_lt_sub_one_of_pos (x := 1 + 1 / t) (by linarith) (by linarith)
    linarith
  have hlog0 : 0 < (Trans.log (1 + 1 / t) : ℝ) := Real.log_pos (by linarith)
  have h1 : t * Trans.log (1 + 1 / t) < 1 := by
    calc t * Trans.log (1 + 1 / t) < t * (1 / t) := mul_lt_mul_of_pos_left hlog ht
      _ = 1 := mul_one_div_cancel ht.ne'
  have h2 : 0 < t * Trans.log (1 + 1 / t) := mul_pos ht hlog0
  have h3 : 0 < 1 / 2 / mi := div_pos (by norm_num) hmi
  constructor
  · exact mul_pos hr (mul_pos h3 (by linarith))
  · have : rate / (2 * mi) = rate * (1 / 2 / mi) := by
      rw [div_div, mul_one_div]
    rw [this]
    apply mul_lt_mul_of_pos_left _ hr
    have : (1 / 2 / mi) * (1 - t * Trans.log (1 + 1 / t)) < (1 / 2 / mi) * 1 := by
      apply mul_lt_mul_of_pos_left _ h3
      linarith
    linarith

theorem sinAlpha_pos (alpha : ℝ) (h0 : 0 < alpha) (h1 : alpha ≤ 180) : 0 < sinAlpha alpha := by
  unfold sinAlpha
  have hpos : 0 < (Trig.sinDeg alpha : ℝ) := by
    show 0 < Real.sin (alpha * (3.141592653589793 / 180))
    apply Real.sin_pos_of_pos_of_lt_pi
    · positivity
    · have := Real.pi_gt_d20
      nlinarith
  split
  · norm_num
  · rw [if_neg (not_lt.2 hpos.le)]
    exact hpos

theorem efficiency_range (mu thickness s : ℝ) (hmu : 0 < mu) (ht : 0 < thickness) (hs : 0 < s) :
    0 < intrinsicEfficiency mu thickness s ∧ intrinsicEfficiency mu thickness s < 1 := by
  unfold intrinsicEfficiency
  rw [if_pos ht]
  have h : -mu * thickness / s < 0 := by
    apply div_neg_of_neg_of_pos _ hs
    nlinarith [mul_pos hmu ht]
  have h1 : (Trans.exp (-mu * thickness / s) : ℝ) < 1 := Real.exp_lt_one_iff.2 h
  have h2 : 0 < (Trans.exp (-mu * thickness / s) : ℝ) := Real.exp_pos _
  exact ⟨by linarith, by linarith⟩

/-- C33: the rate returned (per detected photon when a thickness is given) is above a non-negative intensity threshold. -/
theorem C33_rate_above (pf : String → Outcome (SMap String ℝ)) (L : Library ℝ) (d : Nat) (key : EscapeKey ℝ) (E : ℝ)
    (r : SMap String (Line ℝ)) (h : L.computeEscape pf d key E = .ok r) (hthr : 0 ≤ key.intensityThreshold)
    (ha : 0 < key.alphaIn) (ha' : key.alphaIn ≤ 180)
    (hmu : ∀ m, L.mixMu pf d key.composition E false = .ok m → 0 < m.total) :
    ∀ p ∈ r, key.intensityThreshold < p.2.rate := by
  intro p hp
  obtain ⟨mi, n, t, f, mf, hh⟩ := (C33_peaks pf L d key E r h).2 p hp
  rw [hh.rate_eq]
  have hab := hh.above
  split
  · rename_i ht
    obtain ⟨e0, e1⟩ := efficiency_range mi.total key.thickness _ (hmu mi hh.incident) ht (sinAlpha_pos _ ha ha')
    have hpos : 0 < escapeRate (sinAlpha key.alphaIn) mi.total mf.total f.rate := lt_of_le_of_lt hthr hab
    refine lt_of_lt_of_le hab ?_
    rw [le_div_iff₀ e0]
    nlinarith
  · exact hab

/-! ### Examples and violations -/

section examples

/-- Stand-ins for `log` and `exp`: inverse of each other, `log` below the identity minus one. -/
@[reducible] def escapeTrans : Trans ℚ := ⟨fun x => (x - 1) / 2, fun x => if x < 0 then 0 else 2 * x + 1⟩

attribute [local instance] escapeTrans
local instance : Trig ℚ := ⟨fun _ => 1⟩

/-- An element with tables, its caches empty. -/
def detectorElement (n : String) (mass c : ℚ) : LibElement ℚ :=
  { name := n, mass := mass,
    data := Element.run Element.exampleElement (Element.tableOps.take 12 ++ [.setMass [8, 8] [3, 3] [c, c] [1, 1] []]) }

/-- A library with two elements and a material. -/
def detectorOps : List (Op ℚ) :=
  [.addElement (detectorElement "Fe" 56 1), .addElement (detectorElement "O" 16 5)]

/-- A detector made of the two elements. -/
def detectorKey : EscapeKey ℚ :=
  { composition := [("Fe", 3), ("O", 1)], energyThreshold := 1, intensityThreshold := 0, nThreshold := 1,
    alphaIn := 90, thickness := 0 }

/-- The library of the examples. -/
def detectorLibrary (ops : List (Op ℚ)) : Library ℚ := run examplePf 5 (empty false exampleKey) (detectorOps ++ ops)

/-- The number of peaks of an answer. -/
def countPeaks (o : Outcome (SMap String (Line ℚ))) : Outcome Nat := o.bind (fun r => .ok r.length)

/-- C91 is violated: asked for at most one peak, and to merge those closer than one, the code returns six peaks, two of
them a tenth apart (with rational stand-ins for the logarithm and the exponential; the theorem
`C91_thresholds_ignored_violated` is for any). -/
theorem C91_limit_violated :
    detectorKey.nThreshold = 1 ∧ detectorKey.energyThreshold = 1 ∧
    ((detectorLibrary []).computeEscape examplePf 5 detectorKey 8).bind
      (fun r => .ok (r.length, (r.find? "Fe_KL2esc").map (fun l => l.energy), (r.find? "Fe_KL3esc").map (fun l => l.energy)))
      = .ok (6, some (9 / 5), some (17 / 10)) := by
  decide +kernel

/-- The rates of the example are above the threshold, one of them is not. -/
example : countPeaks ((detectorLibrary []).computeEscape examplePf 5 { detectorKey with intensityThreshold := 1 / 100 } 8) = .ok 5 := by
  decide +kernel

/-- Calls filling the cache. -/
def fillOps : List (Op ℚ) := [.setEscapeCacheEnabled true, .updateEscapeCache detectorKey [8, 9]]

theorem fillOps_keeps : KeepsEscape examplePf 5 (empty false exampleKey) (detectorOps ++ fillOps) := by
  have hdata : ∀ (ops : List (Op ℚ)) (L : Library ℚ) (rest : List (Op ℚ)), L.escape = [] →
      (∀ k es, Op.updateEscapeCache k es ∉ ops) →
      (∀ M : Library ℚ, M.escape = [] → KeepsEscape examplePf 5 M rest) → KeepsEscape examplePf 5 L (ops ++ rest) := by
    intro ops
    induction ops with
    | nil => intro L rest h _ hr; exact hr L h
    | cons op ops ih =>
      intro L rest h hn hr
      refine ⟨Or.inl h, ih _ rest ?_ (fun k es hm => hn k es (List.mem_cons_of_mem _ hm)) hr⟩
      exact step_escape examplePf 5 L op (fun k es he => hn k es (by simp [he])) h
  refine hdata detectorOps _ _ rfl ?_ ?_
  · intro k es hm
    simp [detectorOps] at hm
  · intro M _
    exact ⟨Or.inr (Or.inl ⟨_, rfl⟩), Or.inr (Or.inr (Or.inr ⟨_, _, rfl⟩)), trivial⟩

/-- The cache is filled and used: C34 is not empty. -/
example : (detectorLibrary fillOps).escape.length = 2
    ∧ (detectorLibrary fillOps).escapeCompatible detectorKey = true
    ∧ countPeaks ((detectorLibrary fillOps).getEscape examplePf 5 detectorKey 8) = .ok 6 := by
  decide +kernel

/-- The answer before and after clearing the cache, after some calls: are they the same, and the number of peaks. -/
def beforeAfter (ops : List (Op ℚ)) (key : EscapeKey ℚ) (x : ℚ) : Outcome (Bool × Nat × Nat) := do
  let a ← (detectorLibrary ops).getEscape examplePf 5 key x
  let b ← (detectorLibrary (ops ++ [.clearEscapeCache])).getEscape examplePf 5 key x
  return (decide (a = b), a.length, b.length)

example : beforeAfter fillOps detectorKey 8 = .ok (true, 6, 6) := by decide +kernel

/-- C34 is violated: changing the data of an element does not clear the escape cache. -/
theorem C34_element_changed_violated :
    beforeAfter (fillOps ++ [.onElement "Fe" (.setMass [8, 8] [3, 3] [9, 9] [1, 1] [])]) detectorKey 8
      = .ok (false, 6, 6) := by
  decide +kernel

/-- C34 is violated: nor does replacing the element. -/
theorem C34_element_replaced_violated :
    beforeAfter (fillOps ++ [.addElement (detectorElement "Fe" 56 7)]) detectorKey 8 = .ok (false, 6, 6) := by
  decide +kernel

end examples

/-! ### C34: the order of evaluation before C++17 -/

section order

omit [IsStrictOrderedRing K]

/-- fisx_elements.cpp:2335, `cache[energy] = this->getEscape(...)`, when the left operand is evaluated first, as the
language allows before C++17 (nothing in setup.py asks for C++17): the entry exists, empty, when the escape is asked
for, and remains when the call throws. -/
def updateEscapeLoopLeft (pf : String → Outcome (SMap String K)) (fuel : Nat) (key : EscapeKey K) (energies : List K)
    (L : Library K) : Outcome Unit × Library K :=
  match energies with
  | [] => (.ok (), L)
  | x :: rest =>
    if L.escape.mem x then updateEscapeLoopLeft pf fuel key rest { L with escapeKey := key }
    else
      let L := { L with escape := L.escape.insert x [] }
      match L.getEscape pf fuel key x with
      | .ok r => updateEscapeLoopLeft pf fuel key rest { L with escape := L.escape.insert x r, escapeKey := key }
      | .throw e => (.throw e, L)
      | .ub u => (.ub u, L)
      | .diverge => (.diverge, L)

/-- `updateEscapeCache` with this order. -/
def updateEscapeCacheLeft (pf : String → Outcome (SMap String K)) (L : Library K) (fuel : Nat) (key : EscapeKey K)
    (energies : List K) : Outcome Unit × Library K :=
  updateEscapeLoopLeft pf fuel key energies (if L.escapeCompatible key then L else L.clearEscapeCache)

end order

section orderExamples

attribute [local instance] escapeTrans
local instance : Trig ℚ := ⟨fun _ => 1⟩

/-- C34 is violated with that order of evaluation: all the energies but the first have no escape peaks any more. -/
theorem C34_left_first_violated :
    ((detectorLibrary [.setEscapeCacheEnabled true]).updateEscapeCacheLeft examplePf 5 detectorKey [8, 9]).1 = .ok ()
    ∧ countPeaks (((detectorLibrary [.setEscapeCacheEnabled true]).updateEscapeCacheLeft examplePf 5 detectorKey [8, 9]).2.getEscape
        examplePf 5 detectorKey 9) = .ok 0
    ∧ countPeaks ((detectorLibrary [.setEscapeCacheEnabled true]).getEscape examplePf 5 detectorKey 9) = .ok 6 := by
  decide +kernel

end orderExamples

end Library
end Fisx
