import Verif.ConfigBeam
import Verif.DetectorProps

/-!
# The geometry and the detector of a configuration file (C166)

`C64_layers` gives the layers made from the section `[attenuators]`. Here are the angles and the detector, which is completed by the
section `[concentrations]`.
-/

set_option linter.unusedSectionVars false

namespace Fisx
namespace Config

/-- The last entry of a list that meets a condition. -/
noncomputable def lastEntry (p : Str × Str → Prop) (es : List (Str × Str)) : Option (Str × Str) :=
  open Classical in (es.filter (fun e => p e)).getLast?

open Classical in
theorem lastEntry_cons (p : Str × Str → Prop) (e : Str × Str) (es : List (Str × Str)) :
    lastEntry p (e :: es) = (lastEntry p es).or (if p e then some e else none) := by
  unfold lastEntry
  by_cases h : p e
  · rw [List.filter_cons_of_pos (by simpa using h), List.getLast?_cons, if_pos h]
    cases (es.filter (fun e => p e)).getLast? <;> rfl
  · rw [List.filter_cons_of_neg (by simpa using h), if_neg h]
    simp

variable {K R : Type} [Field K] [LinearOrder K]

/-- The angles written in the entry of a sample: fields 4 and 5 are the angles of the incoming and the outgoing beam. The scattering
angle is field 7 if field 6 is positive, the sum of the two angles otherwise. -/
structure GeometryOf (cv : Conv K) (e : Str × Str) (c : Config K R) : Prop where
  alphaIn : (nums cv e)[4]? = some c.alphaIn
  alphaOut : (nums cv e)[5]? = some c.alphaOut
  scattering : ∃ n6 n7, (nums cv e)[6]? = some n6 ∧ (nums cv e)[7]? = some n7 ∧
    c.scatteringAngle = if 0 < n6 then n7 else c.alphaIn + c.alphaOut

/-- The angles are the same. -/
def SameAngles (c c' : Config K R) : Prop :=
  c'.alphaIn = c.alphaIn ∧ c'.alphaOut = c.alphaOut ∧ c'.scatteringAngle = c.scatteringAngle

/-- An enabled sample. -/
def MatrixEntry (cv : Conv K) (e : Str × Str) : Prop := Enabled cv e ∧ IsMatrix e

/-- An enabled detector. -/
def DetectorEntry (cv : Conv K) (e : Str × Str) : Prop := Enabled cv e ∧ IsDetector e

variable (cv : Conv K)

theorem attEntry_geometry {s s' : AttState K R} {e : Str × Str} (h : attEntry cv s e = .ok s') :
    (MatrixEntry cv e → GeometryOf cv e s'.config) ∧ (¬ MatrixEntry cv e → SameAngles s.config s'.config) ∧
    (DetectorEntry cv e → ∃ l, LayerOf cv s.config.materials (some 4) e l ∧
      s'.config.detector = { (defaultDetector : Detector K R) with layer := l }) ∧
    (¬ DetectorEntry cv e → s'.config.detector = s.config.detector) := by
  unfold attEntry at h
  have hn : Ini.multipleValues cv.num ',' (-1) e.2 = nums cv e := rfl
  have hw : Ini.multipleValues Ini.word ',' [] e.2 = words e := rfl
  rw [hn, hw] at h
  dsimp only at h
  have skip : ¬ Enabled cv e → s' = s →
      (MatrixEntry cv e → GeometryOf cv e s'.config) ∧ (¬ MatrixEntry cv e → SameAngles s.config s'.config) ∧
      (DetectorEntry cv e → ∃ l, LayerOf cv s.config.materials (some 4) e l ∧
        s'.config.detector = { (defaultDetector : Detector K R) with layer := l }) ∧
      (¬ DetectorEntry cv e → s'.config.detector = s.config.detector) := by
    intro hdis hs
    rw [hs]
    exact ⟨fun h => absurd h.1 hdis, fun _ => ⟨rfl, rfl, rfl⟩, fun h => absurd h.1 hdis, fun _ => rfl⟩
  cases hnum : nums cv e with
  | nil =>
    rw [hnum] at h
    simp only [Outcome.ok.injEq] at h
    exact skip (by rintro ⟨n, rest, hx, -⟩; rw [hnum] at hx; cases hx) h.symm
  | cons n0 rest =>
    rw [hnum] at h
    dsimp only at h
    by_cases hpos : n0 > 0
    · have hen : Enabled cv e := ⟨n0, rest, hnum, hpos⟩
      rw [if_pos hpos, ← hnum] at h
      by_cases hf : IsFilter e
      · rw [if_pos (by rw [take_pred]; exact hf)] at h
        obtain ⟨l, hl, h⟩ := Outcome.bind_eq_ok.1 h
        simp only [Outcome.pure_eq, Outcome.ok.injEq] at h
        subst h
        exact ⟨fun h => absurd hf h.2.1, fun _ => ⟨rfl, rfl, rfl⟩, fun h => absurd hf h.2.1, fun _ => rfl⟩
      · rw [if_neg (by rw [take_pred]; exact hf)] at h
        by_cases h8 : (words e).length = 8
        · rw [if_pos h8] at h
          obtain ⟨n4, h4, h⟩ := Outcome.bind_eq_ok.1 h
          obtain ⟨n5, h5, h⟩ := Outcome.bind_eq_ok.1 h
          obtain ⟨n6, h6, h⟩ := Outcome.bind_eq_ok.1 h
          obtain ⟨n7, h7, h⟩ := Outcome.bind_eq_ok.1 h
          obtain ⟨w, hw, h⟩ := Outcome.bind_eq_ok.1 h
          have h4 := vget_ok h4
          have h5 := vget_ok h5
          have h6 := vget_ok h6
          have h7 := vget_ok h7
          obtain ⟨g, hg⟩ : ∃ g, g = (if n6 > 0 then s.config.setGeometry n4 n5 n7
              else s.config.setGeometry n4 n5 (n4 + n5)) := ⟨_, rfl⟩
          have hgeo : g.alphaIn = n4 ∧ g.alphaOut = n5 ∧ g.scatteringAngle = (if 0 < n6 then n7 else n4 + n5) ∧
              g.detector = s.config.detector := by
            subst hg
            split_ifs <;> exact ⟨rfl, rfl, rfl, rfl⟩
          obtain ⟨g1, g2, g3, g4⟩ := hgeo
          rw [← hg] at h
          have hgo : ∀ c : Config K R, c.alphaIn = g.alphaIn → c.alphaOut = g.alphaOut →
              c.scatteringAngle = g.scatteringAngle → c.detector = g.detector →
              (MatrixEntry cv e → GeometryOf cv e c) ∧ (¬ MatrixEntry cv e → SameAngles s.config c) ∧
              (DetectorEntry cv e → ∃ l, LayerOf cv s.config.materials (some 4) e l ∧
                c.detector = { (defaultDetector : Detector K R) with layer := l }) ∧
              (¬ DetectorEntry cv e → c.detector = s.config.detector) := by
            intro c e1 e2 e3 e4
            refine ⟨fun _ => ⟨by rw [h4, e1, g1], by rw [h5, e2, g2], n6, n7, h6, h7, by rw [e3, g3, e1, e2, g1, g2]⟩,
              fun h => absurd ⟨hen, hf, h8⟩ h, fun h => absurd h8 h.2.2.1, fun _ => e4.trans g4⟩
          by_cases hm : w = "MULTILAYER".toList
          · rw [if_pos hm] at h
            simp only [Outcome.pure_eq, Outcome.ok.injEq] at h
            subst h
            exact hgo _ rfl rfl rfl rfl
          · rw [if_neg hm] at h
            obtain ⟨l, hl, h⟩ := Outcome.bind_eq_ok.1 h
            simp only [Outcome.pure_eq, Outcome.ok.injEq] at h
            subst h
            exact hgo _ rfl rfl rfl rfl
        · rw [if_neg h8] at h
          by_cases hdet : e.1.take 8 = "Detector".toList
          · rw [if_pos hdet] at h
            obtain ⟨l, hl, h⟩ := Outcome.bind_eq_ok.1 h
            simp only [Outcome.pure_eq, Outcome.ok.injEq] at h
            subst h
            exact ⟨fun h => absurd h.2.2 h8, fun _ => ⟨rfl, rfl, rfl⟩, fun _ => ⟨l, makeLayer_spec cv hl, rfl⟩,
              fun h => absurd ⟨hen, hf, h8, hdet⟩ h⟩
          · rw [if_neg hdet] at h
            obtain ⟨l, hl, h⟩ := Outcome.bind_eq_ok.1 h
            simp only [Outcome.pure_eq, Outcome.ok.injEq] at h
            subst h
            exact ⟨fun h => absurd h.2.2 h8, fun _ => ⟨rfl, rfl, rfl⟩, fun h => absurd h.2.2.2 hdet, fun _ => rfl⟩
    · rw [if_neg hpos] at h
      simp only [Outcome.ok.injEq] at h
      refine skip ?_ h.symm
      rintro ⟨n, rest', hx, hn0⟩
      rw [hnum] at hx
      cases hx
      exact hpos hn0

theorem GeometryOf.same {e : Str × Str} {c c' : Config K R} (h : GeometryOf cv e c) (hs : SameAngles c c') : GeometryOf cv e c' := by
  obtain ⟨n6, n7, h6, h7, h8⟩ := h.scattering
  exact ⟨by rw [hs.1]; exact h.alphaIn, by rw [hs.2.1]; exact h.alphaOut, n6, n7, h6, h7,
    by rw [hs.2.2, hs.1, hs.2.1]; exact h8⟩

theorem attLoop_geometry {s s' : AttState K R} {es : List (Str × Str)} (h : attLoop cv es s = .ok s') :
    (match lastEntry (MatrixEntry cv) es with
      | some e => GeometryOf cv e s'.config
      | none => SameAngles s.config s'.config) ∧
    (match lastEntry (DetectorEntry cv) es with
      | some e => ∃ l, LayerOf cv s.config.materials (some 4) e l ∧
          s'.config.detector = { (defaultDetector : Detector K R) with layer := l }
      | none => s'.config.detector = s.config.detector) := by
  induction es generalizing s with
  | nil =>
    cases h
    exact ⟨⟨rfl, rfl, rfl⟩, rfl⟩
  | cons e t ih =>
    rw [attLoop] at h
    obtain ⟨s1, h1, h⟩ := Outcome.bind_eq_ok.1 h
    have hmat := (attEntry_keeps cv h1).1
    obtain ⟨a1, a2, a3, a4⟩ := attEntry_geometry cv h1
    obtain ⟨b1, b2⟩ := ih h
    rw [hmat] at b2
    rw [lastEntry_cons, lastEntry_cons]
    constructor
    · cases hl : lastEntry (MatrixEntry cv) t with
      | some e' => rw [hl] at b1; exact b1
      | none =>
        rw [hl] at b1
        by_cases hm : MatrixEntry cv e
        · rw [if_pos hm]
          exact (a1 hm).same cv b1
        · rw [if_neg hm]
          have := a2 hm
          exact ⟨b1.1.trans this.1, b1.2.1.trans this.2.1, b1.2.2.trans this.2.2⟩
    · cases hl : lastEntry (DetectorEntry cv) t with
      | some e' => rw [hl] at b2; exact b2
      | none =>
        rw [hl] at b2
        by_cases hm : DetectorEntry cv e
        · rw [if_pos hm]
          obtain ⟨l, h1, h2⟩ := a3 hm
          exact ⟨l, h1, b2.trans h2⟩
        · rw [if_neg hm]
          exact b2.trans (a4 hm)

variable (setArea : Detector K R → K → Outcome Unit × Detector K R) (sort : List (Ray K) → List (Ray K))

/-- What a successful reading has done with the angles and the detector. -/
theorem read_geometry {c c' : Config K R} {file : Option Str} (h : read setArea sort cv c file = (.ok (), c')) :
    ∃ r0 r fit c1 s,
      Ini.read Ini.new file = (.ok (), r0) ∧ fitSection r0 = (.ok fit, r) ∧ SameAngles c c1 ∧ c1.detector = defaultDetector ∧
      c1.materials = c'.materials ∧
      attLoop cv (Ini.readSection r "attenuators".toList false).1 { config := c1, multilayer := false } = .ok s ∧
      SameAngles s.config c' ∧
      concLoop setArea cv (Ini.readSection (if s.multilayer then
          (Ini.readSection (Ini.readSection r "attenuators".toList false).2 "multilayer".toList false).2 else
          (Ini.readSection r "attenuators".toList false).2) "concentrations".toList false).1 s.config.detector = (.ok (), c'.detector) := by
  unfold read at h
  split at h
  · simp at h
  · simp at h
  · simp at h
  · next r0 hr0 =>
    dsimp only at h
    obtain ⟨fit, hfit, h⟩ := orKeep_ok h
    obtain ⟨b, hb, h⟩ := orKeep_ok h
    obtain ⟨c1, hc1, h⟩ := andThen_ok h
    obtain ⟨c2, hc2, h⟩ := andThen_ok h
    obtain ⟨c3, hc3, h⟩ := andThen_ok h
    obtain ⟨c4, hc4, h⟩ := andThen_ok h
    obtain ⟨s, hs, h⟩ := orKeep_ok h
    obtain ⟨sample, hsample, h⟩ := orKeep_ok h
    simp only [Prod.mk.injEq] at hc1 hc2 hc3 hc4 h
    obtain ⟨h1a, h1b⟩ := hc1
    obtain ⟨h2a, h2b⟩ := hc2
    obtain ⟨h3a, h3b⟩ := hc3
    obtain ⟨h4a, h4b⟩ := hc4
    obtain ⟨hfin0, hfin⟩ := h
    refine ⟨r0, (fitSection r0).2, fit, { c4 with beamFilters := [], attenuators := [], sample := [], detector := defaultDetector }, s,
      hr0, ?_, ?_, rfl, ?_, hs, ?_, ?_⟩
    · rw [← hfit]
    · subst h4b h3b h2b h1b; exact ⟨rfl, rfl, rfl⟩
    · rw [← hfin]
      exact (attLoop_keeps cv hs).1.symm
    · rw [← hfin]; exact ⟨rfl, rfl, rfl⟩
    · rw [← hfin]; exact Prod.ext hfin0 rfl

theorem readSection_exact (x : Ini.Reader) (k : Str) (m' : SMap Str Str) (f : Bool) (hx : x.contents.find? k = some m') :
    (Ini.readSection x k f).1 = m' := by
  unfold Ini.readSection
  rw [hx]

theorem readSection_stay (x : Ini.Reader) (k q : Str) (f : Bool) (m' : SMap Str Str) (hx : x.contents.find? q = some m') :
    (Ini.readSection x k f).2.contents.find? q = some m' := by
  unfold Ini.readSection
  cases x.contents.find? k with
  | some m2 => exact hx
  | none =>
    cases f with
    | true => exact hx
    | false =>
      dsimp only
      cases Ini.search k.upper x.sections with
      | none => exact hx
      | some z =>
        show (x.contents.insert z (Ini.entry x.contents z)).find? q = some m'
        rw [SMap.find?_insert]
        split
        · rename_i hz
          subst hz
          unfold Ini.entry
          rw [hx]
          rfl
        · exact hx

theorem fitSection_stay {r0 r : Ini.Reader} {fit : SMap Str Str} (h : fitSection r0 = (.ok fit, r)) (q : Str) (m : SMap Str Str)
    (hx : r0.contents.find? q = some m) : r.contents.find? q = some m := by
  unfold fitSection at h
  dsimp only at h
  split at h
  · simp only [Prod.mk.injEq] at h
    rw [← h.2]
    exact readSection_stay _ _ _ _ _ hx
  · split at h
    · simp only [Prod.mk.injEq] at h
      rw [← h.2]
      exact readSection_stay _ _ _ _ _ (readSection_stay _ _ _ _ _ hx)
    · simp at h

/-- **C166** The angles after reading a file are those of the last enabled sample entry of the section `[attenuators]`; without such an
entry they are not changed. -/
theorem C166_geometry {c c' : Config K R} {text : Str} (h : read setArea sort cv c (some text) = (.ok (), c'))
    {ini : Ini.Reader} (hini : Ini.read Ini.new (some text) = (.ok (), ini)) {att : SMap Str Str}
    (hatt : ini.contents.find? "attenuators".toList = some att) :
    match lastEntry (MatrixEntry cv) att with
    | some e => GeometryOf cv e c'
    | none => SameAngles c c' := by
  obtain ⟨r0, r, fit, c1, s, h1, h2, h3, -, -, h6, h7, -⟩ := read_geometry cv setArea sort h
  rw [hini] at h1
  cases h1
  rw [readSection_exact _ _ _ _ (fitSection_stay h2 _ _ hatt)] at h6
  have := (attLoop_geometry cv h6).1
  cases hl : lastEntry (MatrixEntry cv) att with
  | some e =>
    rw [hl] at this
    exact this.same cv h7
  | none =>
    rw [hl] at this
    exact ⟨h7.1.trans (this.1.trans h3.1), h7.2.1.trans (this.2.1.trans h3.2.1), h7.2.2.trans (this.2.2.trans h3.2.2)⟩

/-- The entry gives the distance of the detector. -/
def IsDistance (e : Str × Str) : Prop := e.1.upper = "DISTANCE".toList

/-- The entry gives the area of the detector. -/
def IsArea (e : Str × Str) : Prop := e.1.upper = "AREA".toList

/-- The setter of the active area changes the diameter, so that the area of the new diameter is the given one. -/
def SetsArea (setArea : Detector K R → K → Outcome Unit × Detector K R) (area : K → K) : Prop :=
  ∀ d v d', setArea d v = (.ok (), d') → d' = { d with diameter := d'.diameter } ∧ area d'.diameter = v

/-- The area of a disc, given its diameter. -/
noncomputable def discArea (diameter : ℝ) : ℝ := Real.pi * (diameter / 2) ^ 2

theorem setsArea_real : SetsArea (R := R) Detector.setActiveArea discArea := by
  intro d v d' h
  unfold Detector.setActiveArea at h
  split_ifs at h with hv
  · simp at h
  · simp only [Prod.mk.injEq, true_and] at h
    subst h
    refine ⟨rfl, ?_⟩
    have hv := not_lt.1 hv
    have hp := Real.pi_pos
    have hs := Real.sq_sqrt (show 0 ≤ v / Real.pi by positivity)
    unfold discArea
    rw [show 2 * Real.sqrt (v / Real.pi) / 2 = Real.sqrt (v / Real.pi) by ring, hs]
    field_simp

theorem concLoop_spec {area : K → K} (hset : SetsArea setArea area) {es : List (Str × Str)} {d d' : Detector K R}
    (h : concLoop setArea cv es d = (.ok (), d')) :
    d'.layer = d.layer ∧ d'.energyThreshold = d.energyThreshold ∧ d'.intensityThreshold = d.intensityThreshold ∧
    d'.nThreshold = d.nThreshold ∧ d'.alphaIn = d.alphaIn ∧
    (match lastEntry IsDistance es with
      | some e => d'.distance = (cv.num e.2).getD (-1) ∧ 0 < d'.distance
      | none => d'.distance = d.distance) ∧
    (match lastEntry IsArea es with
      | some e => area d'.diameter = (cv.num e.2).getD (-1)
      | none => d'.diameter = d.diameter) := by
  induction es generalizing d with
  | nil =>
    cases h
    exact ⟨rfl, rfl, rfl, rfl, rfl, rfl, rfl⟩
  | cons e t ih =>
    rw [concLoop] at h
    rw [lastEntry_cons, lastEntry_cons]
    by_cases hd : IsDistance e
    · have hna : ¬ IsArea e := by
        intro ha
        rw [IsArea, hd] at ha
        revert ha
        decide
      rw [if_pos (show e.1.upper = "DISTANCE".toList from hd)] at h
      unfold Detector.setDistance at h
      split_ifs at h with hv
      · simp at h
      dsimp only at h
      obtain ⟨a, b, c, e1, f, g, i⟩ := ih h
      refine ⟨a, b, c, e1, f, ?_, ?_⟩
      · cases hl : lastEntry IsDistance t with
        | some e' => rw [hl] at g; exact g
        | none =>
          rw [hl] at g
          rw [if_pos hd]
          exact ⟨g, by rw [g]; exact not_le.1 hv⟩
      · rw [if_neg hna]
        cases hl : lastEntry IsArea t with
        | some e' => rw [hl] at i; exact i
        | none => rw [hl] at i; exact i
    · rw [if_neg (show ¬ e.1.upper = "DISTANCE".toList from hd)] at h
      by_cases ha : IsArea e
      · rw [if_pos (show e.1.upper = "AREA".toList from ha)] at h
        split at h
        swap
        · rename_i o d2 hno hx
          simp only [Prod.mk.injEq] at h
          exact absurd h.1 (hno ())
        rename_i d1 hd1
        obtain ⟨k1, k2⟩ := hset _ _ _ hd1
        obtain ⟨a, b, c, e1, f, g, i⟩ := ih h
        rw [k1] at a b c e1 f g
        refine ⟨a, b, c, e1, f, ?_, ?_⟩
        · rw [if_neg hd]
          cases hl : lastEntry IsDistance t with
          | some e' => rw [hl] at g; exact g
          | none => rw [hl] at g; exact g
        · cases hl : lastEntry IsArea t with
          | some e' => rw [hl] at i; exact i
          | none =>
            rw [hl] at i
            rw [if_pos ha]
            show area d'.diameter = (cv.num e.2).getD (-1)
            rw [i, k2]
      · rw [if_neg (show ¬ e.1.upper = "AREA".toList from ha)] at h
        obtain ⟨a, b, c, e1, f, g, i⟩ := ih h
        refine ⟨a, b, c, e1, f, ?_, ?_⟩
        · rw [if_neg hd]
          cases hl : lastEntry IsDistance t with
          | some e' => rw [hl] at g; exact g
          | none => rw [hl] at g; exact g
        · rw [if_neg ha]
          cases hl : lastEntry IsArea t with
          | some e' => rw [hl] at i; exact i
          | none => rw [hl] at i; exact i

/-- **C166** The detector after reading a file: its layer is that of the last enabled detector entry of `[attenuators]`, its distance and
its active area those of the last such entries of `[concentrations]` (in any case of letters). What is not given is what a new detector
has, not what an earlier configuration had. -/
theorem C166_detector {area : K → K} (hset : SetsArea setArea area) {c c' : Config K R} {text : Str}
    (h : read setArea sort cv c (some text) = (.ok (), c'))
    {ini : Ini.Reader} (hini : Ini.read Ini.new (some text) = (.ok (), ini)) {att conc : SMap Str Str}
    (hatt : ini.contents.find? "attenuators".toList = some att) (hconc : ini.contents.find? "concentrations".toList = some conc) :
    (match lastEntry (DetectorEntry cv) att with
      | some e => LayerOf cv c'.materials (some 4) e c'.detector.layer
      | none => c'.detector.layer = (Detector.new "" 0 0 1 : Detector K R).layer) ∧
    (match lastEntry IsDistance conc with
      | some e => c'.detector.distance = (cv.num e.2).getD (-1) ∧ 0 < c'.detector.distance
      | none => c'.detector.distance = (Detector.new "" 0 0 1 : Detector K R).distance) ∧
    (match lastEntry IsArea conc with
      | some e => area c'.detector.diameter = (cv.num e.2).getD (-1)
      | none => c'.detector.diameter = (Detector.new "" 0 0 1 : Detector K R).diameter) ∧
    c'.detector.nThreshold = (Detector.new "" 0 0 1 : Detector K R).nThreshold ∧
    c'.detector.energyThreshold = (Detector.new "" 0 0 1 : Detector K R).energyThreshold ∧
    c'.detector.intensityThreshold = (Detector.new "" 0 0 1 : Detector K R).intensityThreshold := by
  obtain ⟨r0, r, fit, c1, s, h1, h2, -, h4, h5, h6, -, h8⟩ := read_geometry cv setArea sort h
  rw [hini] at h1
  cases h1
  have hc : (Ini.readSection (if s.multilayer then
          (Ini.readSection (Ini.readSection r "attenuators".toList false).2 "multilayer".toList false).2 else
          (Ini.readSection r "attenuators".toList false).2) "concentrations".toList false).1 = conc := by
    apply readSection_exact
    have ha := readSection_stay _ "attenuators".toList _ false _ (fitSection_stay h2 _ _ hconc)
    split
    · exact readSection_stay _ _ _ _ _ ha
    · exact ha
  rw [hc] at h8
  rw [readSection_exact _ _ _ _ (fitSection_stay h2 _ _ hatt)] at h6
  have hatt := (attLoop_geometry cv h6).2
  obtain ⟨a, b, e, f, -, g, i⟩ := concLoop_spec cv setArea hset h8
  have hsame : s.config.detector.distance = (Detector.new "" 0 0 1 : Detector K R).distance ∧
      s.config.detector.diameter = (Detector.new "" 0 0 1 : Detector K R).diameter ∧
      s.config.detector.nThreshold = (Detector.new "" 0 0 1 : Detector K R).nThreshold ∧
      s.config.detector.energyThreshold = (Detector.new "" 0 0 1 : Detector K R).energyThreshold ∧
      s.config.detector.intensityThreshold = (Detector.new "" 0 0 1 : Detector K R).intensityThreshold := by
    cases hl : lastEntry (DetectorEntry cv) att with
    | some x =>
      rw [hl] at hatt
      obtain ⟨l, -, hx⟩ := hatt
      rw [hx]
      exact ⟨rfl, rfl, rfl, rfl, rfl⟩
    | none =>
      rw [hl] at hatt
      dsimp only at hatt
      rw [hatt, h4]
      exact ⟨rfl, rfl, rfl, rfl, rfl⟩
  refine ⟨?_, ?_, ?_, f.trans hsame.2.2.1, b.trans hsame.2.2.2.1, e.trans hsame.2.2.2.2⟩
  · cases hl : lastEntry (DetectorEntry cv) att with
    | some x =>
      rw [hl] at hatt
      obtain ⟨l, hl1, hx⟩ := hatt
      dsimp only
      rw [a, hx, ← h5]
      exact hl1
    | none =>
      rw [hl] at hatt
      dsimp only at hatt ⊢
      rw [a, hatt, h4]
      rfl
  · cases hl : lastEntry IsDistance conc with
    | some x => rw [hl] at g; exact g
    | none => rw [hl] at g; exact g.trans hsame.1
  · cases hl : lastEntry IsArea conc with
    | some x => rw [hl] at i; exact i
    | none => rw [hl] at i; exact i.trans hsame.2.1

/-- **C166** The setter of the program gives the detector the area of a disc. -/
theorem C166_area : SetsArea (R := R) Detector.setActiveArea discArea := setsArea_real

/-! ### An example -/

/-- A file with angles, a detector, a distance and an area. -/
def detectorFile : String :=
  "[fit]\nenergy=10\n[attenuators]\nMatrix=1, Fe, 7, 1, 40, 50, 1, 80\nDetector=1, Si, 2, 3, 1\n" ++
  "[concentrations]\nDistance=5\narea=30\n"

/-- A toy setter for the example. -/
def toyArea (d : Detector ℚ Unit) (a : ℚ) : Outcome Unit × Detector ℚ Unit := (.ok (), { d with diameter := a })

/-- The hypotheses of `C166_geometry` and `C166_detector` are met, and the values are those of the file. -/
example : SetsArea toyArea id ∧
    (read toyArea id toyConv new (some detectorFile.toList)).1 = .ok () ∧
    (Ini.read Ini.new (some detectorFile.toList)).1 = .ok () ∧
    (((Ini.read Ini.new (some detectorFile.toList)).2.contents.find? "attenuators".toList).map List.length) = some 2 ∧
    (((Ini.read Ini.new (some detectorFile.toList)).2.contents.find? "concentrations".toList).map List.length) = some 2 ∧
    (let c := (read toyArea id toyConv new (some detectorFile.toList)).2
     [c.alphaIn, c.alphaOut, c.scatteringAngle, c.detector.distance, c.detector.diameter, c.detector.layer.thickness] =
       [40, 50, 80, 5, 30, 3] ∧ c.detector.layer.materialName = "Si") := by
  refine ⟨?_, by decide +kernel, by decide +kernel, by decide +kernel, by decide +kernel, by decide +kernel⟩
  intro d v d' h
  cases h
  exact ⟨rfl, rfl⟩

end Config
end Fisx
