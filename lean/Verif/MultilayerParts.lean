import Verif.MultilayerTertiary
import Verif.EPDL97Props
import Verif.MultilayerExample
import Verif.LayerLibrary
import Verif.XrfProps
import Verif.TransmissionTableProps

/-!
# Parts of the fluorescence calculation on their own (C72, C73, C114-C117)

Specifications of the pieces used by the theorems C71-C73, C84 and C85 (families, requests, beam, layers, detector), the sign
of the coefficients and the range of the efficiencies.
-/

set_option linter.unusedSectionVars false

namespace Fisx

/-! ## C114: coefficients are not negative -/

namespace Element

variable {K : Type} [Field K] [LinearOrder K] [IsStrictOrderedRing K] [Trans K]

/-- No tabulated coefficient of the element is negative. -/
structure NonnegData (e : Element K) : Prop where
  partials : ∀ s l, e.partialV.find? s = some l → ∀ v ∈ l, 0 ≤ v
  table : ∀ t, e.mu = some t → ∀ v ∈ t.coherent ++ t.compton ++ t.pair, 0 ≤ v

theorem processValue_nonneg (hexp : ExpNonneg K) {b : Int × Int × K × K} {x y : K} {t : List K} (ht : ∀ v ∈ t, 0 ≤ v)
    (h : processValue b x t = .ok y) : 0 ≤ y := by
  obtain ⟨i1, i2, x0, x1⟩ := b
  unfold processValue at h
  simp only at h
  split at h
  · exact ht _ (vgetI_mem h)
  · obtain ⟨y0, _, h⟩ := Outcome.bind_eq_ok.1 h
    obtain ⟨y1, _, h⟩ := Outcome.bind_eq_ok.1 h
    have h : logLogGuarded x x0 x1 y0 y1 = y := by simpa using h
    rw [← h]
    exact EPDL97.logLogGuarded_nonneg hexp _ _ _ _ _

theorem computeMu_nonneg (hexp : ExpNonneg K) {e : Element K} (hd : NonnegData e) {x : K} {m : Mu K} (h : computeMu e x = .ok m) :
    0 ≤ m.coherent ∧ 0 ≤ m.compton ∧ 0 ≤ m.pair ∧ 0 ≤ m.photoelectric ∧ 0 ≤ m.total := by
  obtain ⟨h1, h2⟩ := computeMu_ok hexp hd.partials h
  have hp : 0 ≤ m.photoelectric := by
    rw [h2]
    refine List.sum_nonneg ?_
    intro v hv
    obtain ⟨s, _, rfl⟩ := List.mem_map.1 hv
    exact h1 s
  unfold computeMu at h
  obtain ⟨parts, _, h⟩ := Outcome.bind_eq_ok.1 h
  obtain ⟨b, _, h⟩ := Outcome.bind_eq_ok.1 h
  simp only at h
  obtain ⟨coh, hcoh, h⟩ := Outcome.bind_eq_ok.1 h
  obtain ⟨com, hcom, h⟩ := Outcome.bind_eq_ok.1 h
  obtain ⟨pai, hpai, h⟩ := Outcome.bind_eq_ok.1 h
  simp only [Outcome.pure_eq, Outcome.ok.injEq] at h
  have ht : ∀ v ∈ (e.mu.getD { coherent := [], compton := [], pair := [], photoelectric := [], total := [] }).coherent ++
      (e.mu.getD { coherent := [], compton := [], pair := [], photoelectric := [], total := [] }).compton ++
      (e.mu.getD { coherent := [], compton := [], pair := [], photoelectric := [], total := [] }).pair, 0 ≤ v := by
    intro v hv
    cases hm : e.mu with
    | none => rw [hm] at hv; simp at hv
    | some t => rw [hm] at hv; exact hd.table t hm v hv
  have n1 := processValue_nonneg hexp (fun v hv => ht v (by simp [hv])) hcoh
  have n2 := processValue_nonneg hexp (fun v hv => ht v (by simp [hv])) hcom
  have n3 := processValue_nonneg hexp (fun v hv => ht v (by simp [hv])) hpai
  subst h
  dsimp only at hp ⊢
  exact ⟨n1, n2, n3, hp, by linarith⟩

/-- **C114** (element) No coefficient returned for an element is negative when its tables have no negative value, at any
energy, inside or outside of the tables, the cache of coefficients being used or not. -/
theorem C114_element (hexp : ExpNonneg K) (e : Element K) (hc : CacheTrue e) (hd : NonnegData e) (x : K) (m : Mu K)
    (h : e.getMu x = .ok m) :
    0 ≤ m.coherent ∧ 0 ≤ m.compton ∧ 0 ≤ m.pair ∧ 0 ≤ m.photoelectric ∧ 0 ≤ m.total := by
  rw [getMu_eq hc.mu, getMu_plain] at h
  split at h
  · cases h
  · exact computeMu_nonneg hexp hd h

end Element

namespace Library

variable {K : Type} [Field K] [LinearOrder K] [IsStrictOrderedRing K] [Trans K] [Trig K]

/-- The data of a library make sense: no tabulated coefficient is negative, and the caches hold what would be computed. -/
def NonnegData (L : Library K) : Prop := ∀ e ∈ L.elements, Element.NonnegData e.data ∧ Element.CacheTrue e.data

/-- No coefficient of a mixture is negative. -/
def MixNonneg (m : Mix K) : Prop := 0 ≤ m.coherent ∧ 0 ≤ m.compton ∧ 0 ≤ m.pair ∧ 0 ≤ m.photoelectric

theorem mixSum_nonneg (hexp : Element.ExpNonneg K) {L : Library K} (hL : NonnegData L) {total x : K} (ht : 0 ≤ total) :
    ∀ (items : List (String × K)) (acc r : Mix K), (∀ p ∈ items, 0 ≤ p.2) → MixNonneg acc →
    mixSum L total x items acc = .ok r → MixNonneg r := by
  intro items
  induction items with
  | nil => intro acc r _ ha h; simp only [mixSum, Outcome.ok.injEq] at h; rw [← h]; exact ha
  | cons p rest ih =>
    intro acc r hp ha h
    obtain ⟨n, w⟩ := p
    unfold mixSum at h
    split at h
    · cases h
    · obtain ⟨e, he, h⟩ := Outcome.bind_eq_ok.1 h
      obtain ⟨m, hm, h⟩ := Outcome.bind_eq_ok.1 h
      have hmem : e ∈ L.elements := by
        unfold vget at he
        split at he
        · rename_i a ha'; cases he; exact List.mem_of_getElem? ha'
        · cases he
      obtain ⟨m1, m2, m3, m4, _⟩ := Element.C114_element hexp e.data (hL e hmem).2 (hL e hmem).1 x m hm
      have hw : 0 ≤ w / total := div_nonneg (hp (n, w) List.mem_cons_self) ht
      refine ih _ r (fun q hq => hp q (List.mem_cons_of_mem _ hq)) ?_ h
      obtain ⟨a1, a2, a3, a4⟩ := ha
      exact ⟨add_nonneg a1 (mul_nonneg m1 hw), add_nonneg a2 (mul_nonneg m2 hw), add_nonneg a3 (mul_nonneg m3 hw),
        add_nonneg a4 (mul_nonneg m4 hw)⟩

theorem addScaled_nonneg' (c : SMap String K) (w : K) (hw : 0 ≤ w) (acc : SMap String K) (ha : ∀ p ∈ acc, 0 ≤ p.2)
    (hc : ∀ p ∈ c, 0 ≤ p.2) : ∀ p ∈ addScaled acc c w, 0 ≤ p.2 := by
  unfold addScaled
  induction c generalizing acc with
  | nil => exact ha
  | cons q r ih =>
    rw [List.foldl_cons]
    refine ih _ ?_ (fun p hp => hc p (List.mem_cons_of_mem _ hp))
    intro p hp
    have hq := mul_nonneg (hc q List.mem_cons_self) hw
    unfold addTo at hp
    rcases SMap.mem_insert hp with rfl | hp
    · dsimp only
      cases hf : acc.find? q.1 with
      | none => simpa using hq
      | some v =>
        have := ha _ (SMap.mem_of_find? hf)
        dsimp only at this
        simp only [Option.getD_some]
        linarith
    · exact ha p hp

theorem amountsLoop_nonneg {pf : String → Outcome (SMap String K)} {L : Library K} {fuel : Nat}
    (hc : ∀ n c, L.comp pf fuel n = .ok c → ∀ p ∈ c, 0 ≤ p.2) : ∀ (items : List (String × K)) (acc : SMap String K) (t : K)
    (r : SMap String K × K), (∀ p ∈ acc, 0 ≤ p.2) → amountsLoop pf L fuel items acc t = .ok r → ∀ p ∈ r.1, 0 ≤ p.2 := by
  intro items
  induction items with
  | nil => intro acc t r ha h; simp only [amountsLoop, Outcome.ok.injEq] at h; rw [← h]; exact ha
  | cons q rest ih =>
    intro acc t r ha h
    obtain ⟨n, w⟩ := q
    unfold amountsLoop at h
    split at h
    · cases h
    · rename_i hw
      obtain ⟨c, hcc, h⟩ := Outcome.bind_eq_ok.1 h
      split at h
      · cases h
      · exact ih _ _ r (addScaled_nonneg' c w (not_lt.1 hw) acc ha (hc n c hcc)) h

/-- **C114** (mixture) No coefficient of a mixture is negative when the tables of the elements have no negative value and the
compositions involved no negative fraction. -/
theorem C114_mixture (hexp : Element.ExpNonneg K) (pf : String → Outcome (SMap String K)) (L : Library K) (fuel : Nat)
    (hL : NonnegData L) (hc : ∀ n c, L.comp pf fuel n = .ok c → ∀ p ∈ c, 0 ≤ p.2) (input : SMap String K) (x : K) (b : Bool)
    (hb : b = true → ∀ p ∈ input, 0 ≤ p.2) (m : Mix K) (h : L.mixMu pf fuel input x b = .ok m) :
    0 ≤ m.coherent ∧ 0 ≤ m.compton ∧ 0 ≤ m.pair ∧ 0 ≤ m.photoelectric ∧ 0 ≤ m.total := by
  unfold mixMu at h
  obtain ⟨a, ha, h⟩ := Outcome.bind_eq_ok.1 h
  obtain ⟨s, hs, h⟩ := Outcome.bind_eq_ok.1 h
  have hpa : 0 ≤ a.2 ∧ ∀ p ∈ a.1, 0 ≤ p.2 := by
    unfold amounts at ha
    split at ha
    · rename_i hbt
      simp only [Outcome.ok.injEq] at ha
      rw [← ha]
      exact ⟨zero_le_one, hb hbt⟩
    · obtain ⟨r, hr, ha⟩ := Outcome.bind_eq_ok.1 ha
      split at ha
      · cases ha
      · rename_i hpos
        have ha : r = a := by simpa using ha
        subst ha
        exact ⟨(not_le.1 hpos).le, amountsLoop_nonneg hc _ _ _ _ (by simp) hr⟩
  obtain ⟨s1, s2, s3, s4⟩ := mixSum_nonneg hexp hL hpa.1 a.1 _ s hpa.2 ⟨le_refl _, le_refl _, le_refl _, le_refl _⟩ hs
  simp only [Outcome.pure_eq, Outcome.ok.injEq] at h
  subst h
  dsimp only
  exact ⟨s1, s2, s3, s4, by linarith⟩

/-- **C114** (name) The same for the coefficients of a named element, formula or material. -/
theorem C114_name (hexp : Element.ExpNonneg K) (pf : String → Outcome (SMap String K)) (L : Library K) (fuel : Nat)
    (hL : NonnegData L) (hc : ∀ n c, L.comp pf fuel n = .ok c → ∀ p ∈ c, 0 ≤ p.2) (name : String) (x : K) (m : Mix K)
    (h : L.nameMu pf fuel name x = .ok m) :
    0 ≤ m.coherent ∧ 0 ≤ m.compton ∧ 0 ≤ m.pair ∧ 0 ≤ m.photoelectric ∧ 0 ≤ m.total := by
  unfold nameMu at h
  split at h
  · obtain ⟨e, he, h⟩ := Outcome.bind_eq_ok.1 h
    obtain ⟨mu, hm, h⟩ := Outcome.bind_eq_ok.1 h
    have hmem := getElement_mem L name e he
    have := Element.C114_element hexp e.data (hL e hmem).2 (hL e hmem).1 x mu hm
    simp only [Outcome.pure_eq, Outcome.ok.injEq] at h
    rw [← h]
    exact this
  · obtain ⟨c, hcc, h⟩ := Outcome.bind_eq_ok.1 h
    split at h
    · cases h
    · exact C114_mixture hexp pf L fuel hL hc c x false (by simp) m h

end Library

namespace Multilayer

open Xrf (Request)

/-! ## C72: what a family contains -/

/-- **C72** (families) The lines of the family "Ka" are those whose name begins with "KL", those of "Kb" the other lines of the
K shell, and those of any other family the lines whose name begins with the name of the family. -/
theorem C72_families (f : String) (t : Str) :
    inFamily f t = true ↔ (f = "Ka" ∧ ['K', 'L'] <+: t) ∨
      (f = "Kb" ∧ ['K'] <+: t ∧ ¬ ['K', 'L'] <+: t) ∨ (f ≠ "Ka" ∧ f ≠ "Kb" ∧ f.toList <+: t) := by
  have hpre : ∀ p t : Str, Shell.startsWith t p = true ↔ p <+: t := by
    intro p t
    unfold Shell.startsWith
    rw [List.prefix_iff_eq_take, decide_eq_true_eq, eq_comm]
  unfold inFamily actualFamily
  by_cases ha : f = "Ka"
  · subst ha
    rw [Bool.or_eq_true, hpre]
    simp
  · by_cases hb : f = "Kb"
    · subst hb
      rw [Bool.or_eq_true, hpre]
      have e1 : (if ("Kb" : String) = "Ka" then "KL" else if ("Kb" : String) = "Kb" then "KM" else "Kb").toList = ['K', 'M'] := by
        decide +kernel
      rw [e1]
      rcases t with _ | ⟨a, _ | ⟨b, r⟩⟩
      · simp
      · by_cases h : a = 'K'
        · subst h; simp
        · simp [h, Ne.symm h]
      · by_cases h : a = 'K'
        · subst h
          by_cases h2 : b = 'L'
          · subst h2; simp
          · simp [h2, Ne.symm h2]
        · simp [h, Ne.symm h]
    · rw [Bool.or_eq_true, hpre]
      simp [ha, hb]

example : inFamily "Kb" "KM3".toList = true ∧ inFamily "Kb" "KL3".toList = false ∧ inFamily "Ka" "KL3".toList = true ∧
    inFamily "L" "L3M5".toList = true := by decide +kernel

/-! ## C117: the composition used for a layer -/

section parts

variable {R : Type} (pf : String → Outcome (SMap String ℝ)) (fuel : Nat) (L : Library ℝ) (c : Config ℝ R)

/-- The transmission of a layer of mass thickness `d` (density times thickness) seen under an angle, for a coefficient `mu` and
a layer covering the fraction `f` of the surface. -/
noncomputable def beerLambert (f d angle mu : ℝ) : ℝ := (1 - f) + f * Real.exp (-(d / Layer.absSin angle * mu))

theorem beerLambert_range {f d angle mu : ℝ} (hf : 0 ≤ f ∧ f ≤ 1) (hd : 0 ≤ d) (hs : 0 < Layer.absSin angle) (hm : 0 ≤ mu) :
    0 ≤ beerLambert f d angle mu ∧ beerLambert f d angle mu ≤ 1 := by
  unfold beerLambert
  have h1 := Real.exp_pos (-(d / Layer.absSin angle * mu))
  have h2 : Real.exp (-(d / Layer.absSin angle * mu)) ≤ 1 := by
    rw [Real.exp_le_one_iff]
    have := mul_nonneg (div_nonneg hd hs.le) hm
    linarith
  constructor
  · have := mul_nonneg hf.1 h1.le
    linarith [hf.2]
  · have := mul_le_mul_of_nonneg_left h2 hf.1
    linarith

theorem absSin_90 : Layer.absSin 90 = 1 := by
  unfold Layer.absSin
  rw [abs_of_pos (by norm_num : (0:ℝ) < 90), show (90 : ℝ) * Real.pi / 180 = Real.pi / 2 by ring, Real.sin_pi_div_two]

/-- **C73** (layers) The transmission of a layer used in the calculation is the Beer-Lambert law for its own density, thickness
and covered fraction, with the total coefficient of what it is made of; it is only returned for a positive mass thickness. -/
theorem C73_layer (l : Layer ℝ) (e angle : ℝ) (hs : 0 < Layer.absSin angle) (comp : SMap String ℝ) (v : ℝ)
    (h : layerTransmission pf fuel L c l e angle comp = .ok v) :
    ∃ m, layerMu pf fuel L c l e comp = .ok m ∧ 0 < l.density * l.thickness ∧
      v = beerLambert l.funnyFactor (l.density * l.thickness) angle m.total := by
  unfold layerTransmission layerTransmissions Layer.getTransmissions at h
  obtain ⟨ts, h1, h⟩ := Outcome.bind_eq_ok.mp h
  obtain ⟨xs, h2, h1⟩ := Outcome.bind_eq_ok.mp h1
  simp only [Outcome.pure_eq, Outcome.ok.injEq] at h1
  dsimp only at h2
  rw [Layer.massThickness_sin l angle hs] at h2
  split at h2
  · cases h2
  · rename_i hpos
    obtain ⟨ms, h3, h2⟩ := Outcome.bind_eq_ok.mp h2
    obtain ⟨mx, h4, h3⟩ := Outcome.bind_eq_ok.mp h3
    simp only [Outcome.pure_eq, Outcome.ok.injEq] at h2 h3
    have h5 := collect_ok (layerMus_collect h4)
    cases h5 with
    | cons h6 h7 =>
      cases h7
      refine ⟨_, h6, ?_, ?_⟩
      · simp only [Layer.nonPositive, decide_eq_true_eq, not_le] at hpos
        have := mul_pos hpos hs
        rwa [div_mul_cancel₀ _ hs.ne'] at this
      · subst h3 h2 h1
        simp only [List.map_cons, List.map_nil, vget, List.getElem?_cons_zero, Layer.transmissionOf, finite,
          Outcome.ok.injEq] at h
        rw [← h]
        rfl

/-- **C73** (detector) The intrinsic efficiency of a detector with a positive density and thickness is the part of the radiation
absorbed at normal incidence; it is 1 for a detector whose density or thickness is not set. -/
theorem C73_detector (d : Layer ℝ) (e v : ℝ) (h : detectorIntrinsic pf fuel L d e = .ok v) :
    (0 < d.density ∧ 0 < d.thickness → ∃ m, Layer.totalMu pf fuel L d e = .ok m ∧
      v = 1 - beerLambert d.funnyFactor (d.density * d.thickness) 90 m) ∧
    (¬ (0 < d.density ∧ 0 < d.thickness) → v = 1) := by
  unfold detectorIntrinsic at h
  constructor
  · intro hd
    rw [if_pos hd] at h
    obtain ⟨t, h1, h⟩ := Outcome.bind_eq_ok.mp h
    simp only [Outcome.pure_eq, Outcome.ok.injEq] at h
    have h90 : 0 < Layer.absSin 90 := by rw [absSin_90]; norm_num
    obtain ⟨mu, h2, -, h3⟩ := Layer.transmission_ok (pf := pf) (fuel := fuel) (L := L) (l := d) (e := e) h90 h1
    refine ⟨mu, h2, ?_⟩
    rw [← h, h3]
    rfl
  · intro hd
    rw [if_neg hd] at h
    simpa using h.symm

/-- **C117** (own material) A layer with a material of its own is made of the components of that material, in proportion to its
amounts, each resolved with the materials of the configuration before those of the library. -/
theorem C117_material (hpf : Library.ParserOK pf) (on : Bool) (key : EscapeKey ℝ) (ops : List (Library.Op ℝ))
    (hobj : Library.ObjectsValid ops) (S : String → Prop)
    (hS : Library.ProperWith pf (Library.run pf fuel (Library.empty on key) ops) c.materials S) (l : Layer ℝ)
    (hl : l.hasMaterial = true) (hin : ∀ e ∈ l.material.composition, S e.1 ∧ 0 < e.2) (m : SMap String ℝ)
    (h : layerComposition pf fuel (Library.run pf fuel (Library.empty on key) ops) c l = .ok m) (hne : m ≠ []) :
    (∀ e ∈ m, 0 < e.2) ∧ (m.map Prod.snd).sum = 1 ∧ m.keys.Nodup
      ∧ ∃ G : String → SMap String ℝ,
        (∀ e ∈ l.material.composition,
          (Library.run pf fuel (Library.empty on key) ops).compWith pf c.materials fuel e.1 = .ok (G e.1) ∧ G e.1 ≠ [])
        ∧ ∀ x, Library.val m x =
          (l.material.composition.map (fun e => e.2 * Library.val (G e.1) x)).sum / (l.material.composition.map Prod.snd).sum := by
  unfold layerComposition at h
  rw [if_pos hl] at h
  exact Library.C29_amounts pf hpf fuel on key ops hobj c.materials S hS fuel l.material.composition hin m h hne

/-- **C117** (named material) A layer given by the name of a material of the configuration is made of that material, whatever the
library knows under the same name, unless the name is a formula. -/
theorem C117_name (d : Nat) (hpf : Library.ParserOK pf) (on : Bool) (key : EscapeKey ℝ) (ops : List (Library.Op ℝ))
    (hobj : Library.ObjectsValid ops) (S : String → Prop)
    (hS : Library.ProperWith pf (Library.run pf (d + 1) (Library.empty on key) ops) c.materials S) (l : Layer ℝ)
    (hl : l.hasMaterial = false)
    (hnf : Library.NotFormula pf (Library.run pf (d + 1) (Library.empty on key) ops) l.materialName) (mat : Material ℝ)
    (hm : c.materials.find? (fun m => m.name == l.materialName) = some mat) (m : SMap String ℝ)
    (h : layerComposition pf (d + 1) (Library.run pf (d + 1) (Library.empty on key) ops) c l = .ok m) (hne : m ≠ []) :
    ∃ G : String → SMap String ℝ,
      (∀ e ∈ mat.composition,
        (Library.run pf (d + 1) (Library.empty on key) ops).compWith pf c.materials d e.1 = .ok (G e.1) ∧ G e.1 ≠ [])
      ∧ ∀ x, Library.val m x =
        (mat.composition.map (fun e => e.2 * Library.val (G e.1) x)).sum / (mat.composition.map Prod.snd).sum := by
  unfold layerComposition at h
  rw [if_neg (by simp [hl])] at h
  exact Library.C29_supplied_first pf hpf (d + 1) on key ops hobj c.materials S hS d l.materialName hnf mat hm m h hne

/-! ## C115: the range of the transmissions and efficiencies -/

/-- A layer covers a fraction of the surface and what it is made of has no negative fraction. -/
def GoodLayer (l : Layer ℝ) : Prop :=
  (0 ≤ l.funnyFactor ∧ l.funnyFactor ≤ 1) ∧ ∀ m, layerComposition pf fuel L c l = .ok m → ∀ p ∈ m, 0 ≤ p.2

/-- A table of transmissions: increasing energies and values between 0 and 1. -/
def GoodTable (t : TransmissionTable ℝ) : Prop := t.table.Sorted ∧ ∀ p ∈ t.table, 0 ≤ p.2 ∧ p.2 ≤ 1

/-- What the user supplied makes sense: no negative coefficient or fraction, layers covering fractions of the surface,
tables between 0 and 1. -/
structure Sensible : Prop where
  data : Library.NonnegData L
  fractions : ∀ n m, L.comp pf fuel n = .ok m → ∀ p ∈ m, 0 ≤ p.2
  layers : ∀ l ∈ c.sample ++ c.beamFilters ++ c.attenuators, GoodLayer pf fuel L c l
  detector : 0 ≤ c.detector.layer.funnyFactor ∧ c.detector.layer.funnyFactor ≤ 1
  tables : ∀ t ∈ c.userBeamFilters ++ c.userAttenuators, GoodTable t

variable {pf fuel L c}

theorem expNonneg : Element.ExpNonneg ℝ := fun x => (Real.exp_pos x).le

theorem layerMu_nonneg (hs : Sensible pf fuel L c) {l : Layer ℝ} {e : ℝ} {comp : SMap String ℝ} (hc : ∀ p ∈ comp, 0 ≤ p.2)
    {m : Mix ℝ} (h : layerMu pf fuel L c l e comp = .ok m) : 0 ≤ m.total := by
  unfold layerMu at h
  split at h
  · exact (Library.C114_mixture expNonneg pf L fuel hs.data hs.fractions comp e true (fun _ => hc) m h).2.2.2.2
  · obtain ⟨m', h1, h⟩ := Outcome.bind_eq_ok.mp h
    exact (Library.C114_mixture expNonneg pf L fuel hs.data hs.fractions m' e false (by simp) m h).2.2.2.2

theorem layerTransmission_range (hs : Sensible pf fuel L c) {l : Layer ℝ} (hl : GoodLayer pf fuel L c l) {e angle : ℝ}
    (ha : 0 < Layer.absSin angle) {comp : SMap String ℝ} (hc : ∀ p ∈ comp, 0 ≤ p.2) {v : ℝ}
    (h : layerTransmission pf fuel L c l e angle comp = .ok v) : 0 ≤ v ∧ v ≤ 1 := by
  obtain ⟨m, h1, h2, rfl⟩ := C73_layer pf fuel L c l e angle ha comp v h
  exact beerLambert_range hl.1 h2.le ha (layerMu_nonneg hs hc h1)

theorem table_range {t : TransmissionTable ℝ} (ht : GoodTable t) (e : ℝ) : 0 ≤ t.getTransmission e ∧ t.getTransmission e ≤ 1 := by
  by_cases hne : t.table = []
  · rw [TransmissionTable.C03_empty t hne e]; exact ⟨zero_le_one, le_refl _⟩
  · obtain ⟨p, hp, q, hq, h1, h2⟩ := TransmissionTable.C03_bounded t ht.1 hne e
    exact ⟨(ht.2 p hp).1.trans h1, h2.trans (ht.2 q hq).2⟩

theorem prod_range {l : List ℝ} (h : ∀ v ∈ l, 0 ≤ v ∧ v ≤ 1) : 0 ≤ l.prod ∧ l.prod ≤ 1 := by
  induction l with
  | nil => simp
  | cons a l ih =>
    obtain ⟨h1, h2⟩ := ih (fun v hv => h v (List.mem_cons_of_mem _ hv))
    obtain ⟨h3, h4⟩ := h a List.mem_cons_self
    rw [List.prod_cons]
    exact ⟨mul_nonneg h3 h1, mul_le_one₀ h4 h1 h2⟩

theorem mul_range {a b : ℝ} (ha : 0 ≤ a ∧ a ≤ 1) (hb : 0 ≤ b ∧ b ≤ 1) : 0 ≤ a * b ∧ a * b ≤ 1 :=
  ⟨mul_nonneg ha.1 hb.1, mul_le_one₀ ha.2 hb.1 hb.2⟩

theorem geometric_range {layer : Int} {v : ℝ} (h : Xrf.getGeometricEfficiency c layer = .ok v) : 0 ≤ v ∧ v ≤ 1 := by
  have key : ∀ d r : ℝ, 0 ≤ 1 / 2 * (1 - d / Real.sqrt (d ^ 2 + r ^ 2)) ∧ 1 / 2 * (1 - d / Real.sqrt (d ^ 2 + r ^ 2)) ≤ 1 := by
    intro d r
    have h1 : |d| ≤ Real.sqrt (d ^ 2 + r ^ 2) := by
      rw [← Real.sqrt_sq_eq_abs]
      exact Real.sqrt_le_sqrt (by nlinarith [sq_nonneg r])
    have h2 : |d / Real.sqrt (d ^ 2 + r ^ 2)| ≤ 1 := by
      rw [abs_div, abs_of_nonneg (Real.sqrt_nonneg _)]
      exact div_le_one_of_le₀ h1 (Real.sqrt_nonneg _)
    rw [abs_le] at h2
    constructor <;> linarith [h2.1, h2.2]
  unfold Xrf.getGeometricEfficiency at h
  dsimp only at h
  split at h
  · cases h; norm_num
  split at h
  · cases h; norm_num
  split at h
  · cases h
  split at h
  · cases h
  · obtain ⟨d, -, h⟩ := Outcome.bind_eq_ok.mp h
    simp only [Outcome.pure_eq, Outcome.ok.injEq] at h
    rw [← h]
    exact key d _

theorem totalMu_nonneg (hs : Sensible pf fuel L c) {d : Layer ℝ} {e m : ℝ} (h : Layer.totalMu pf fuel L d e = .ok m) : 0 ≤ m := by
  unfold Layer.totalMu at h
  obtain ⟨x, h1, h⟩ := Outcome.bind_eq_ok.mp h
  simp only [Outcome.pure_eq, Outcome.ok.injEq] at h
  rw [← h]
  split at h1
  · exact (Library.C114_mixture expNonneg pf L fuel hs.data hs.fractions _ e false (by simp) x h1).2.2.2.2
  · exact (Library.C114_name expNonneg pf L fuel hs.data hs.fractions _ e x h1).2.2.2.2

theorem sampleComposition_nonneg (hs : Sensible pf fuel L c) (j : Nat) : ∀ p ∈ sampleComposition pf fuel L c j, 0 ≤ p.2 := by
  unfold sampleComposition
  split
  · simp
  · rename_i l hl
    split
    · rename_i m hm
      exact (hs.layers l (by simp [List.mem_of_getElem? hl])).2 m hm
    · simp

/-- **C115** (filters) The part of the beam that passes the filters is between 0 and 1. -/
theorem C115_beam (hs : Sensible pf fuel L c) (e : ℝ) : 0 ≤ passing pf fuel L c e ∧ passing pf fuel L c e ≤ 1 := by
  unfold passing
  refine mul_range ?_ (prod_range ?_)
  · have key : ∀ ls : List (Layer ℝ), (∀ l ∈ ls, GoodLayer pf fuel L c l) →
        0 ≤ valueOr0 (filterFactor pf fuel L c ls e) ∧ valueOr0 (filterFactor pf fuel L c ls e) ≤ 1 := by
      intro ls
      induction ls with
      | nil => intro _; simp [filterFactor, valueOr0]
      | cons l ls ih =>
        intro hl
        have ih := ih (fun x hx => hl x (List.mem_cons_of_mem _ hx))
        unfold filterFactor
        cases h1 : layerTransmission pf fuel L c l e 90 [] with
        | ok v =>
          have h90 : 0 < Layer.absSin 90 := by rw [absSin_90]; norm_num
          have hv := layerTransmission_range hs (hl l List.mem_cons_self) h90 (by simp) h1
          rw [Outcome.ok_bind]
          cases h2 : filterFactor pf fuel L c ls e with
          | ok r =>
            rw [h2] at ih
            exact mul_range hv ih
          | throw _ => exact ⟨le_refl _, zero_le_one⟩
          | ub _ => exact ⟨le_refl _, zero_le_one⟩
          | diverge => exact ⟨le_refl _, zero_le_one⟩
        | throw _ => exact ⟨le_refl _, zero_le_one⟩
        | ub _ => exact ⟨le_refl _, zero_le_one⟩
        | diverge => exact ⟨le_refl _, zero_le_one⟩
    exact key _ (fun l hl => hs.layers l (by simp [hl]))
  · intro v hv
    obtain ⟨t, ht, rfl⟩ := List.mem_map.1 hv
    exact table_range (hs.tables t (by simp [ht])) e

variable (pf fuel L c)
variable (srt : List (String × ℝ) → List (String × ℝ)) (o : Options ℝ) (g : Bool)

/-- **C115** (efficiency) The efficiency returned with a line is between 0 and 1. -/
theorem C115_efficiency (hL : SoundLibrary pf fuel L) (hs : Sensible pf fuel L c) (ha : 0 < Layer.absSin c.alphaOut)
    (reqs : List Request) (hp : ∀ q ∈ reqs, ' ' ∉ q.element.toList) (b : Beam ℝ) (r : Result ℝ)
    (h : fluorescence pf fuel L srt c o g b (reqs.map .ok) = .ok r) (k : String) (i : Nat)
    (t : Str) (ht : ' ' ∉ t) (l : Leaf ℝ) (hl : leaf? r k i t = some l) : 0 ≤ l.efficiency ∧ l.efficiency ≤ 1 := by
  obtain ⟨T, A, q, d, h1, h2, h3, h4, h5⟩ := C73_efficiency pf fuel L srt c o g hL reqs hp b r h k i t ht l hl
  rw [h5]
  refine mul_range (mul_range (mul_range (mul_range (prod_range ?_) (prod_range ?_)) (prod_range ?_)) ?_) ?_
  · intro v hv
    obtain ⟨j, hj, rfl⟩ := List.mem_map.1 hv
    obtain ⟨lj, h6, h7⟩ := h1 j (List.mem_range.1 hj)
    exact layerTransmission_range hs (hs.layers lj (by simp [List.mem_of_getElem? h6])) ha (sampleComposition_nonneg hs j) h7
  · have h90 : 0 < Layer.absSin 90 := by rw [absSin_90]; norm_num
    intro v hv
    have key : ∀ (as : List (Layer ℝ)) (A : List ℝ), (∀ a ∈ as, GoodLayer pf fuel L c a) →
        List.Forall₂ (fun a v => layerTransmission pf fuel L c a l.energy 90 [] = .ok v) as A → ∀ v ∈ A, 0 ≤ v ∧ v ≤ 1 := by
      intro as A hg hf
      induction hf with
      | nil => simp
      | cons e1 _ ih =>
        intro v hv
        rcases List.mem_cons.1 hv with rfl | hv
        · exact layerTransmission_range hs (hg _ List.mem_cons_self) h90 (by simp) e1
        · exact ih (fun a ha => hg a (List.mem_cons_of_mem _ ha)) v hv
    exact key _ A (fun a ha => hs.layers a (by simp [ha])) h2 v hv
  · intro v hv
    obtain ⟨a, ha, rfl⟩ := List.mem_map.1 hv
    exact table_range (hs.tables a (by simp [ha])) _
  · split at h3
    · exact geometric_range h3
    · cases h3; norm_num
  · split at h4
    · obtain ⟨h6, h7⟩ := C73_detector pf fuel L c.detector.layer l.energy d h4
      by_cases hd : 0 < c.detector.layer.density ∧ 0 < c.detector.layer.thickness
      · obtain ⟨m, h8, rfl⟩ := h6 hd
        have h90 : 0 < Layer.absSin 90 := by rw [absSin_90]; norm_num
        have := beerLambert_range hs.detector (mul_pos hd.1 hd.2).le h90 (totalMu_nonneg hs h8)
        constructor <;> linarith [this.1, this.2]
      · rw [h7 hd]; norm_num
    · cases h4; norm_num

theorem excitedLine_rate (hL : SoundLibrary pf fuel L) (hs : Library.NonnegData L) {el : String} {e w : ℝ} {t : Str} {f : Factor ℝ}
    (h : excitedLine L el e w t = some f) (hf : 0 < f.factor) : 0 ≤ f.rate := by
  unfold excitedLine at h
  split at h
  · rename_i fs hfs
    obtain ⟨x, h1, hfs⟩ := Outcome.bind_eq_ok.mp hfs
    have hmem := Library.getElement_mem L el x h1
    have hct := (hL.elements x hmem).cached
    rw [(Element.cacheTrue_transparent hct e w).2] at hfs
    simp only [Element.getFactors, Bool.false_eq_true, if_false] at hfs
    unfold Element.computeFactors at hfs
    obtain ⟨vac, -, hfs⟩ := Outcome.bind_eq_ok.mp hfs
    obtain ⟨lines, -, hfs⟩ := Outcome.bind_eq_ok.mp hfs
    split at hfs
    · cases hfs; simp [SMap.find?] at h
    · obtain ⟨m, hm, hfs⟩ := Outcome.bind_eq_ok.mp hfs
      simp only [Outcome.pure_eq, Outcome.ok.injEq] at hfs
      subst hfs
      have := SMap.mem_of_find? h
      obtain ⟨p, hp, hpe⟩ := List.mem_map.1 this
      simp only [Prod.mk.injEq] at hpe
      obtain ⟨rfl, rfl⟩ := hpe
      rw [← (Element.cacheTrue_transparent hct e w).1] at hm
      have hm' := (Element.C114_element expNonneg x.data hct (hs x hmem).1 e m hm).2.2.2.1
      exact mul_nonneg hf.le hm'
  · cases h

/-- **C115** (primary) The primary excitation returned for a line is never negative. -/
theorem C115_primary (hL : SoundLibrary pf fuel L) (hs : Sensible pf fuel L c) (hin : 0 < sinIn c) (hout : 0 < sinOut c)
    (hd : ∀ l ∈ c.sample, 0 ≤ l.density * l.thickness)
    (reqs : List Request) (hp : ∀ q ∈ reqs, ' ' ∉ q.element.toList) (b : Beam ℝ) (r : Result ℝ)
    (h : fluorescence pf fuel L srt c o g b (reqs.map .ok) = .ok r) (k : String) (i : Nat)
    (t : Str) (ht : ' ' ∉ t) (l : Leaf ℝ) (hl : leaf? r k i t = some l) : 0 ≤ l.primary := by
  have h1 := C71_primary pf fuel L srt c o g hL reqs hp b r h k i t ht
  rw [hl] at h1
  change l.primary = _ at h1
  rw [h1]
  refine List.sum_nonneg ?_
  intro v hv
  obtain ⟨ray, -, rfl⟩ := List.mem_map.1 hv
  refine List.sum_nonneg ?_
  intro v hv
  obtain ⟨req, -, rfl⟩ := List.mem_map.1 hv
  have hmu : ∀ e, 0 ≤ sampleMu pf fuel L c i e := by
    intro e
    unfold sampleMu
    split
    · exact le_refl _
    · rename_i l' _
      cases hm : layerMu pf fuel L c l' e (sampleComposition pf fuel L c i) with
      | ok m => exact layerMu_nonneg hs (sampleComposition_nonneg hs i) hm
      | throw _ => exact le_refl _
      | ub _ => exact le_refl _
      | diverge => exact le_refl _
  have hmt : 0 ≤ massThicknessOf c i := by
    unfold massThicknessOf
    split
    · exact le_refl _
    · rename_i l' hl'
      exact hd l' (List.mem_of_getElem? hl')
  have hfrac : 0 ≤ elementFraction pf fuel L c o i req.element := by
    unfold elementFraction
    split
    · cases hf : (sampleComposition pf fuel L c i).find? req.element with
      | none => simp
      | some v => exact sampleComposition_nonneg hs i _ (SMap.mem_of_find? hf)
    · norm_num
  unfold primaryTerm
  split
  · exact le_refl _
  · rename_i f hf
    split
    · rename_i hh
      have hr := excitedLine_rate pf fuel L hL hs.data hf hh.2.1
      have hss : 0 ≤ sampleMu pf fuel L c i (behind pf fuel L c ray).1 / sinIn c + sampleMu pf fuel L c i f.energy / sinOut c :=
        add_nonneg (div_nonneg (hmu _) hin.le) (div_nonneg (hmu _) hout.le)
      have hlast : 0 ≤ (1 - Real.exp (-((sampleMu pf fuel L c i (behind pf fuel L c ray).1 / sinIn c +
          sampleMu pf fuel L c i f.energy / sinOut c) * massThicknessOf c i))) /
          (sampleMu pf fuel L c i (behind pf fuel L c ray).1 / sinIn c + sampleMu pf fuel L c i f.energy / sinOut c) := by
        refine div_nonneg ?_ hss
        have : Real.exp (-((sampleMu pf fuel L c i (behind pf fuel L c ray).1 / sinIn c +
          sampleMu pf fuel L c i f.energy / sinOut c) * massThicknessOf c i)) ≤ 1 := by
          rw [Real.exp_le_one_iff]
          have := mul_nonneg hss hmt
          linarith
        linarith
      refine mul_nonneg (mul_nonneg (mul_nonneg ?_ (div_nonneg hfrac hin.le)) hr) hlast
      unfold reaching
      exact (Real.exp_pos _).le
    · exact le_refl _

/-! ## C116: the overloads -/

/-- fisx_multilayer.cpp:40-50, the overload with three vectors. -/
noncomputable def fluorescenceVectors (overwriting : Beam ℝ) (elements : List String) (layers : List Int) (families : List String) :
    Outcome (Result ℝ) :=
  fluorescence pf fuel L srt c o g overwriting (requestsOf families layers 0 elements)

/-- fisx_xrf.cpp:195-225, the overload for one element, layer and family. -/
noncomputable def fluorescenceOne (overwriting : Beam ℝ) (element : String) (layer : Int) (family : String) : Outcome (Result ℝ) :=
  if family = "" then .throw .invalidArgument
  else if layer < 0 then .throw .invalidArgument
  else fluorescenceVectors pf fuel L c srt o g overwriting [element] [layer] [family]

/-- fisx_xrf.cpp:396-446, the overload with strings "Cr", "Cr K" or "Cr K 0". -/
noncomputable def fluorescenceStrings (overwriting : Beam ℝ) (int : Str → Option Int) (items : List Str) : Outcome (Result ℝ) := do
  let rs ← Xrf.parseRequests int items
  fluorescenceVectors pf fuel L c srt o g overwriting (rs.map (fun r => r.element)) (rs.map (fun r => r.layer))
    (rs.map (fun r => r.family))

theorem requestsOf_get (families : List String) (layers : List Int) : ∀ (n : Nat) (elements : List String) (k : Nat),
    (requestsOf families layers n elements)[k]? = (elements[k]?).map (fun e => requestAt e families layers (n + k)) := by
  intro n elements
  induction elements generalizing n with
  | nil => intro k; simp [requestsOf]
  | cons e rest ih =>
    intro k
    cases k with
    | zero => simp [requestsOf]
    | succ k =>
      rw [requestsOf, List.getElem?_cons_succ, ih (n + 1) k, List.getElem?_cons_succ]
      congr 1
      funext e
      rw [Nat.add_assoc, Nat.add_comm 1 k]

/-- **C116** (vectors) The vectors are read position by position: the request made at position `k` is for element `k` with family
`k` and layer `k`, or the only layer when a single one is given. -/
theorem C116_vectors (elements : List String) (layers : List Int) (families : List String) (reqs : List Request)
    (hn : reqs.length = elements.length)
    (hk : ∀ (k : Nat) (r : Request), reqs[k]? = some r → elements[k]? = some r.element ∧ families[k]? = some r.family ∧
      (layers[k]? = some r.layer ∧ layers.length ≠ 1 ∨ layers = [r.layer])) (b : Beam ℝ) :
    fluorescenceVectors pf fuel L c srt o g b elements layers families = fluorescence pf fuel L srt c o g b (reqs.map .ok) := by
  unfold fluorescenceVectors
  congr 1
  apply List.ext_getElem?
  intro k
  rw [requestsOf_get, Nat.zero_add, List.getElem?_map]
  cases hr : reqs[k]? with
  | none =>
    have : elements[k]? = none := by
      rw [List.getElem?_eq_none_iff] at hr ⊢
      omega
    rw [this]
    rfl
  | some r =>
    obtain ⟨h1, h2, h3⟩ := hk k r hr
    rw [h1]
    simp only [Option.map_some, Option.some.injEq]
    unfold requestAt
    have hf : vget families k = .ok r.family := vget_ok.2 h2
    have hl : (if layers.length > 1 then vget layers k else vget layers 0) = .ok r.layer := by
      rcases h3 with ⟨h4, h5⟩ | rfl
      · have hlt : k < layers.length := (List.getElem?_eq_some_iff.1 h4).1
        by_cases h6 : layers.length > 1
        · rw [if_pos h6]; exact vget_ok.2 h4
        · omega
      · rfl
    rw [hf, Outcome.ok_bind, hl]
    rfl

theorem calculate_ub (env : Env ℝ) (he : env.layers = []) (o : Options ℝ) (reqs : List (Outcome Request)) (x w : ℝ) (hx : 0 ≤ x) :
    calculate env o (.ub .outOfBounds :: reqs) [(x, w)] = .ub .outOfBounds := by
  unfold calculate
  have hm : minimumThreshold ([] : List ℝ) (-1) = -1 := by simp [minimumThreshold]
  have h1 : ∀ m, ∃ rd, rayData env o m x w = .ok rd := by
    intro m
    unfold rayData
    have : (if o.secondary > 0 then emissionsLoop env o m x w 0 env.layers [] else .ok []) = .ok [] := by
      split
      · rw [he]; rfl
      · rfl
    rw [he] at this ⊢
    exact ⟨_, by
      simp only [incident, Outcome.ok_bind]
      rw [this, Outcome.ok_bind]
      rfl⟩
  obtain ⟨rd, h2⟩ := h1 (-1)
  rw [List.reverse_singleton, rayLoop]
  dsimp only
  rw [hm]
  rw [if_neg (by linarith), h2, Outcome.ok_bind]
  rfl

/-- **C118** (violated) When there are more elements than families, or no layer is given, the program reads past the end of a vector
as soon as a ray of the beam is treated: here for an empty sample. -/
theorem C118_short_vectors_violated (srt' : List (String × ℝ) → List (String × ℝ)) (e : ℝ) (he : 0 ≤ e) (element family : String)
    (elements families : List String) (layers : List Int) :
    fluorescenceVectors pf fuel L (Config.new : Config ℝ R) srt' o false
      { normalized := true, rays := [⟨e, 1, 1, 0⟩] } (element :: elements) layers [] = .ub .outOfBounds ∧
    fluorescenceVectors pf fuel L (Config.new : Config ℝ R) srt' o false
      { normalized := true, rays := [⟨e, 1, 1, 0⟩] } (element :: elements) [] (family :: families) = .ub .outOfBounds := by
  have hu : usedBeam (Config.new : Config ℝ R) { normalized := true, rays := [⟨e, 1, 1, 0⟩] } = [(e, 1)] := by
    simp [usedBeam]
  constructor
  · unfold fluorescenceVectors fluorescence
    rw [hu]
    exact calculate_ub _ rfl o _ e 1 he
  · unfold fluorescenceVectors fluorescence
    rw [hu]
    exact calculate_ub _ rfl o _ e 1 he

/-- **C118** (partial) No request is read past the end of the vectors when every element has a family, and a layer unless a single one
is given. -/
theorem C118_enough_partial (elements families : List String) (layers : List Int) (hf : elements.length ≤ families.length)
    (hl : layers.length = 1 ∨ 1 < layers.length ∧ elements.length ≤ layers.length) :
    ∀ q ∈ requestsOf families layers 0 elements, ∃ r, q = .ok r := by
  intro q hq
  obtain ⟨k, hk⟩ := List.getElem?_of_mem hq
  rw [requestsOf_get, Nat.zero_add] at hk
  cases he : elements[k]? with
  | none => rw [he] at hk; cases hk
  | some e =>
    rw [he] at hk
    simp only [Option.map_some, Option.some.injEq] at hk
    have hlt : k < elements.length := (List.getElem?_eq_some_iff.1 he).1
    have h1 : vget families k = .ok families[k] := vget_ok.2 (List.getElem?_eq_getElem (by omega))
    have h2 : ∃ n, (if layers.length > 1 then vget layers k else vget layers 0) = .ok n := by
      rcases hl with hl | ⟨hl, hl'⟩
      · rw [if_neg (by omega)]
        exact ⟨_, vget_ok.2 (List.getElem?_eq_getElem (by omega : 0 < layers.length))⟩
      · rw [if_pos hl]
        exact ⟨_, vget_ok.2 (List.getElem?_eq_getElem (by omega : k < layers.length))⟩
    obtain ⟨n, h2⟩ := h2
    rw [← hk]
    unfold requestAt
    rw [h1, Outcome.ok_bind, h2]
    exact ⟨_, rfl⟩

example : requestsOf ["K", "L"] [-1] 0 ["Fe", "Pb"] = [.ok ⟨"Fe", "K", -1⟩, .ok ⟨"Pb", "L", -1⟩] ∧
    requestsOf ["K", "L"] [0, 1] 0 ["Fe", "Pb"] = [.ok ⟨"Fe", "K", 0⟩, .ok ⟨"Pb", "L", 1⟩] := by decide +kernel

/-- **C116** (one) The overload for a single element gives what the vectors of one item give; without a family or with a negative
layer it is refused. -/
theorem C116_one (element family : String) (layer : Int) (b : Beam ℝ) :
    (family = "" ∨ layer < 0 → fluorescenceOne pf fuel L c srt o g b element layer family = .throw .invalidArgument) ∧
    (family ≠ "" → 0 ≤ layer → fluorescenceOne pf fuel L c srt o g b element layer family =
      fluorescence pf fuel L srt c o g b [.ok { element := element, family := family, layer := layer }]) := by
  unfold fluorescenceOne
  constructor
  · rintro (h | h)
    · rw [if_pos h]
    · by_cases hf : family = ""
      · rw [if_pos hf]
      · rw [if_neg hf, if_pos h]
  · intro hf hl
    rw [if_neg hf, if_neg (not_lt.2 hl)]
    exact C116_vectors pf fuel L c srt o g [element] [layer] [family] [⟨element, family, layer⟩] rfl
      (by
        intro k r hk
        rcases k with _ | k
        · simp only [List.getElem?_cons_zero, Option.some.injEq] at hk
          subst hk
          exact ⟨rfl, rfl, Or.inr rfl⟩
        · simp at hk) b

/-- **C116** (strings) The overload with strings gives what the requests read from the strings, in their order, give. -/
theorem C116_strings (int : Str → Option Int) (items : List Str) (b : Beam ℝ) (reqs : List Request)
    (h : List.Forall₂ (fun s r => Xrf.parseRequest int s = .ok r) items reqs) :
    fluorescenceStrings pf fuel L c srt o g b int items = fluorescence pf fuel L srt c o g b (reqs.map .ok) := by
  unfold fluorescenceStrings
  have h1 := (Xrf.C54_list int items reqs).2 h
  rw [h1, Outcome.ok_bind]
  refine C116_vectors pf fuel L c srt o g _ _ _ reqs (by simp) ?_ b
  intro k r hk
  refine ⟨by simp [hk], by simp [hk], ?_⟩
  by_cases h1 : reqs.length = 1
  · right
    obtain ⟨q, rfl⟩ := List.length_eq_one_iff.1 h1
    rcases k with _ | k
    · simp only [List.getElem?_cons_zero, Option.some.injEq] at hk
      subst hk; rfl
    · simp at hk
  · left
    exact ⟨by simp [hk], by simpa using h1⟩

theorem compositions_beam (b : Beam ℝ) (ls : List (Layer ℝ)) :
    compositions pf fuel L { c with beam := b } ls = compositions pf fuel L c ls := by
  induction ls with
  | nil => rfl
  | cons l ls ih => rw [compositions, compositions, ih]; rfl

theorem filterLoop_beam (b : Beam ℝ) (ls : List (Layer ℝ)) (rays : List (ℝ × ℝ)) :
    filterLoop pf fuel L { c with beam := b } ls rays = filterLoop pf fuel L c ls rays := by
  induction ls generalizing rays with
  | nil => rfl
  | cons l ls ih =>
    rw [filterLoop, filterLoop]
    simp only [ih]
    rfl

theorem geometricLoop_beam (b : Beam ℝ) (use : Bool) (i : Nat) (ls : List (Layer ℝ)) :
    geometricLoop { c with beam := b } use i ls = geometricLoop c use i ls := by
  induction ls generalizing i with
  | nil => rfl
  | cons l ls ih => rw [geometricLoop, geometricLoop, ih]; rfl

/-- **C116** (beam) A beam given with the call replaces the one of the configuration exactly when it has rays. -/
theorem C116_beam (b b' : Beam ℝ) (reqs : List (Outcome Request)) :
    (b.rays = [] → fluorescence pf fuel L srt c o g b reqs = fluorescence pf fuel L srt c o g c.beam reqs) ∧
    (b.rays ≠ [] → fluorescence pf fuel L srt { c with beam := b' } o g b reqs = fluorescence pf fuel L srt { c with beam := b } o g Beam.new reqs) := by
  constructor
  · intro h
    have : usedBeam c b = usedBeam c c.beam := by
      unfold usedBeam
      rw [h]
      simp
    unfold fluorescence
    rw [this]
  · intro h
    have : usedBeam { c with beam := b' } b = usedBeam { c with beam := b } Beam.new := by
      unfold usedBeam
      have h1 : ¬ b.rays.length < 1 := by
        have := List.length_pos_iff.2 h
        omega
      rw [if_neg h1]
      simp [Beam.new]
    unfold fluorescence
    rw [this]
    simp only [compositions_beam, filterLoop_beam, geometricLoop_beam]
    rfl

/-! ### Examples -/

theorem feSensible (fuel : Nat) : Sensible feParser (fuel + 1) feLibrary feConfig where
  data := by
    intro e he
    simp only [feLibrary, List.mem_singleton] at he
    subst he
    refine ⟨⟨?_, ?_⟩, Element.cacheTrue_empty rfl rfl⟩
    · intro s l h
      have := SMap.mem_of_find? h
      simp only [feElement, List.mem_cons, Prod.mk.injEq, List.not_mem_nil, or_false] at this
      rcases this with ⟨-, rfl⟩ | ⟨-, rfl⟩ <;> intro v hv <;> simp at hv <;> rcases hv with rfl | rfl | rfl <;> norm_num
    · intro t h v hv
      simp only [feElement, Option.some.injEq] at h
      subst h
      simp at hv
      rcases hv with rfl | rfl <;> norm_num
  fractions := by
    intro n m h
    unfold Library.comp at h
    obtain ⟨r, h1, h⟩ := Outcome.bind_eq_ok.1 h
    have hr : ∀ p ∈ r, 0 ≤ p.2 := by
      unfold Library.formula feParser at h1
      by_cases hn : n = "Fe"
      · rw [if_pos hn, Outcome.ok_bind] at h1
        have hm : Library.masses feLibrary [("Fe", 1)] = some [("Fe", 1 * 56)] := by
          have h1 : feLibrary.dict.find? "Fe" = some 0 := rfl
          have h2 : feLibrary.elements[0]? = some ⟨"Fe", 56, feElement⟩ := rfl
          simp [Library.masses, h1, h2]
        rw [hm] at h1
        simp [SMap.total] at h1
        subst h1
        simp
      · rw [if_neg hn, Outcome.ok_bind] at h1
        simp [Library.masses] at h1
        subst h1
        simp
    split at h
    · simp at h; subst h; exact hr
    · have : Library.lookup feLibrary n = none := rfl
      rw [this] at h
      simp at h
      subst h
      simp
  layers := by
    intro l hl
    have hl' : l ∈ feConfig.sample := by simpa [feConfig, Config.new] using hl
    refine ⟨?_, ?_⟩
    · have hl : l = Layer.new "Fe" 8 1 1 := by simpa [feConfig, Config.new] using hl
      subst hl
      simp [Layer.new]
    · intro m hm
      rw [feComposition fuel l hl'] at hm
      cases hm
      simp
  detector := by simp [feConfig, Config.new, Config.defaultDetector, Detector.new, Layer.new]
  tables := by simp [feConfig, Config.new]

/-- The hypotheses of C115 hold for a calculation that returns a line. -/
example (srt' : List (String × ℝ) → List (String × ℝ)) (hs : Library.SortsByEnergy srt') :
    ∃ r l, fluorescence feParser 3 feLibrary srt' feConfig ⟨0, true, 0⟩ true Beam.new [.ok ⟨"Fe", "K", 0⟩] = .ok r ∧
      leaf? r "Fe K" 0 "KL3".toList = some l ∧ 0 ≤ l.efficiency ∧ l.efficiency ≤ 1 ∧ 0 ≤ l.primary := by
  obtain ⟨r, h1, h2⟩ := fe_result 2 srt' hs 0
  obtain ⟨l, h3⟩ := Option.isSome_iff_exists.1 h2
  have hq : Real.sin (Real.pi / 4) > 0 := Real.sin_pos_of_pos_of_lt_pi (by positivity) (by linarith [Real.pi_pos])
  have ha : feConfig.alphaOut = 45 := by simp [feConfig, Config.new]
  have hi : feConfig.alphaIn = 45 := by simp [feConfig, Config.new]
  have e1 : 0 < Layer.absSin feConfig.alphaOut := by
    unfold Layer.absSin
    rw [ha, abs_of_pos (by norm_num : (0:ℝ) < 45), show (45 : ℝ) * Real.pi / 180 = Real.pi / 4 by ring]
    exact hq
  have e2 : 0 < sinOut feConfig := by
    unfold sinOut
    rw [ha, show (45 : ℝ) * (Real.pi / 180) = Real.pi / 4 by ring]
    exact hq
  have e3 : 0 < sinIn feConfig := by
    unfold sinIn
    rw [hi, show (45 : ℝ) * (Real.pi / 180) = Real.pi / 4 by ring]
    exact hq
  have h4 := C115_efficiency feParser 3 feLibrary feConfig srt' ⟨0, true, 0⟩ true (feSound _ _) (feSensible 2) e1 [⟨"Fe", "K", 0⟩]
    (by decide) Beam.new r h1 "Fe K" 0 "KL3".toList (by decide) l h3
  have h5 := C115_primary feParser 3 feLibrary feConfig srt' ⟨0, true, 0⟩ true (feSound _ _) (feSensible 2) e3 e2
    (by intro l hl
        have hl : l = Layer.new "Fe" 8 1 1 := by simpa [feConfig, Config.new] using hl
        subst hl
        simp [Layer.new]) [⟨"Fe", "K", 0⟩] (by decide) Beam.new r h1 "Fe K" 0 "KL3".toList (by decide) l h3
  exact ⟨r, l, h1, h3, h4.1, h4.2, h5⟩

end parts
end Multilayer
end Fisx
