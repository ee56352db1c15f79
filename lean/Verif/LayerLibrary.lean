import Verif.LayerProps
import Verif.LibraryPeaks
import Verif.MultilayerEnv

/-!
# The functions of `fisx::Layer` that use the elements library (/repo/src/fisx_layer.cpp), C67 to C69
-/

set_option linter.unusedSectionVars false

namespace Fisx
namespace Layer

section model

variable {K : Type} [Field K] [LinearOrder K]

/-- fisx_layer.cpp:96-106, `getComposition`. -/
def composition (pf : String → Outcome (SMap String K)) (fuel : Nat) (L : Library K) (l : Layer K) :
    Outcome (SMap String K) :=
  if l.hasMaterial then L.compMap pf [] fuel l.material.composition else L.comp pf fuel l.materialName

/-- fisx_layer.cpp:90-94, `getMassAttenuationCoefficients` at one energy. -/
def massAttenuation [Trans K] (pf : String → Outcome (SMap String K)) (fuel : Nat) (L : Library K) (l : Layer K) (e : K) :
    Outcome (Mix K) := do
  let c ← composition pf fuel L l
  L.mixMu pf fuel c e false

/-- fisx_layer.cpp:108-113, at several energies. -/
def massAttenuations [Trans K] (pf : String → Outcome (SMap String K)) (fuel : Nat) (L : Library K) (l : Layer K)
    (es : List K) : Outcome (List (Mix K)) := do
  let c ← composition pf fuel L l
  L.mixMus pf fuel c es false

/-- fisx_layer.cpp:122-129: the total coefficient used for the transmission. -/
def totalMu [Trans K] (pf : String → Outcome (SMap String K)) (fuel : Nat) (L : Library K) (l : Layer K) (e : K) :
    Outcome K := do
  let m ← (if l.hasMaterial then L.mixMu pf fuel l.material.composition e false else L.nameMu pf fuel l.materialName e)
  return m.total

/-- fisx_layer.cpp:213-219: the elements of one component, each once. -/
def addNames (acc : List String) (names : List String) : List String :=
  names.foldl (fun acc n => if n ∈ acc then acc else acc ++ [n]) acc

/-- fisx_layer.cpp:210-220: the elements of the components. -/
def elementsLoop (pf : String → Outcome (SMap String K)) (fuel : Nat) (L : Library K) :
    List (String × K) → List String → Outcome (List String)
  | [], acc => .ok acc
  | (n, _) :: rest, acc => do
    let c ← L.comp pf fuel n
    elementsLoop pf fuel L rest (addNames acc (SMap.keys c))

/-- fisx_layer.cpp:199-228, `getPeakFamilies`. -/
def peakFamilies (pf : String → Outcome (SMap String K)) (fuel : Nat) (srt : List (String × K) → List (String × K))
    (L : Library K) (l : Layer K) (e : K) : Outcome (List (String × K)) :=
  if l.hasMaterial then do
    let names ← elementsLoop pf fuel L l.material.composition []
    L.peakFamilies srt names e
  else L.peakFamiliesOf pf srt fuel l.materialName e

end model

/-- fisx_layer.cpp:115-154, `getTransmission` at one energy. -/
noncomputable def transmission (pf : String → Outcome (SMap String ℝ)) (fuel : Nat) (L : Library ℝ) (l : Layer ℝ)
    (e angle : ℝ) : Outcome Ext :=
  l.getTransmission (totalMu pf fuel L l e) angle

/-! ### C67: what a layer is made of -/

section made

variable {K : Type} [Field K] [LinearOrder K] [IsStrictOrderedRing K]

/-- The call says what the layer is made of. -/
def Fills : Op K → Prop
  | .setMaterial _ => True
  | .setMaterialName _ => True
  | _ => False

theorem run_content (l : Layer K) (ops : List (Op K)) (h : ∀ op ∈ ops, ¬ Fills op) :
    (l.run ops).hasMaterial = l.hasMaterial ∧ (l.run ops).material = l.material ∧
      (l.run ops).materialName = l.materialName := by
  induction ops generalizing l with
  | nil => exact ⟨rfl, rfl, rfl⟩
  | cons op r ih =>
    have hs : (l.step op).2.hasMaterial = l.hasMaterial ∧ (l.step op).2.material = l.material ∧
        (l.step op).2.materialName = l.materialName := by
      cases op with
      | setDensity v => simp only [step, setDensity]; split <;> exact ⟨rfl, rfl, rfl⟩
      | setThickness v => simp only [step, setThickness]; split <;> exact ⟨rfl, rfl, rfl⟩
      | setMaterialName n => exact absurd trivial (h _ (List.mem_cons_self))
      | setMaterial m => exact absurd trivial (h _ (List.mem_cons_self))
    obtain ⟨a, b, c⟩ := ih (l.step op).2 (fun o ho => h o (List.mem_cons_of_mem _ ho))
    exact ⟨a.trans hs.1, b.trans hs.2.1, c.trans hs.2.2⟩

/-- C67: after any history of calls, accepted or rejected, a layer is made of the material given last. -/
theorem C67_material (pf : String → Outcome (SMap String K)) (fuel : Nat) (L : Library K) (l : Layer K)
    (before after : List (Op K)) (m : Material K) (h : ∀ op ∈ after, ¬ Fills op) :
    composition pf fuel L (l.run (before ++ .setMaterial m :: after)) = L.compMap pf [] fuel m.composition ∧
    (l.run (before ++ .setMaterial m :: after)).hasMaterial = true := by
  rw [run_append]
  obtain ⟨a, b, c⟩ := run_content ((l.run before).step (.setMaterial m)).2 after h
  have : (l.run before).run (.setMaterial m :: after) = (((l.run before).step (.setMaterial m)).2).run after := rfl
  rw [this]
  refine ⟨?_, a⟩
  unfold composition
  rw [a, b]
  rfl

/-- C67: or of the element, formula or material of the library whose name was given last. -/
theorem C67_name (pf : String → Outcome (SMap String K)) (fuel : Nat) (L : Library K) (l : Layer K)
    (before after : List (Op K)) (n : String) (h : ∀ op ∈ after, ¬ Fills op) :
    composition pf fuel L (l.run (before ++ .setMaterialName n :: after)) = L.comp pf fuel n ∧
    (l.run (before ++ .setMaterialName n :: after)).hasMaterial = false ∧
    (l.run (before ++ .setMaterialName n :: after)).materialName = n := by
  rw [run_append]
  obtain ⟨a, b, c⟩ := run_content ((l.run before).step (.setMaterialName n)).2 after h
  have : (l.run before).run (.setMaterialName n :: after) = (((l.run before).step (.setMaterialName n)).2).run after := rfl
  rw [this]
  refine ⟨?_, a, c⟩
  unfold composition
  rw [a, c]
  rfl

/-- C67: as long as nothing has been given the name of the layer is taken. -/
theorem C67_constructor (pf : String → Outcome (SMap String K)) (fuel : Nat) (L : Library K) (name : String) (d t f : K)
    (ops : List (Op K)) (h : ∀ op ∈ ops, ¬ Fills op) :
    composition pf fuel L ((new name d t f).run ops) = L.comp pf fuel name := by
  obtain ⟨a, b, c⟩ := run_content (new name d t f) ops h
  unfold composition
  rw [a, c]
  rfl

/-- The material is not the one named by `getMaterialName`, which is left as it was. -/
theorem C67_reported_name_violated (l : Layer K) (m : Material K) :
    (l.run [.setMaterial m]).materialName = l.materialName := rfl

example : ∀ op ∈ [Op.setDensity (2 : ℚ), .setThickness (-1)], ¬ Fills op := by
  intro op h
  simp only [List.mem_cons, List.not_mem_nil, or_false] at h
  rcases h with rfl | rfl <;> exact id

end made

/-! ### C68: the transmission of a layer -/

section absorption

variable {pf : String → Outcome (SMap String ℝ)} {fuel : Nat} {on : Bool} {key : EscapeKey ℝ}
  {ops : List (Library.Op ℝ)}

/-- The sine of an angle in degrees, without its sign. -/
noncomputable def absSin (angle : ℝ) : ℝ := Real.sin (|angle| * Real.pi / 180)

theorem massThickness_sin (l : Layer ℝ) (angle : ℝ) (hs : 0 < absSin angle) :
    l.massThickness angle = .fin (l.density * l.thickness / absSin angle) := by
  unfold massThickness
  by_cases h90 : angle = 90
  · rw [if_pos h90]
    have : absSin angle = 1 := by
      unfold absSin
      rw [h90, abs_of_pos (by norm_num), show (90 : ℝ) * Real.pi / 180 = Real.pi / 2 by ring]
      exact Real.sin_pi_div_two
    rw [this, div_one]
  · rw [if_neg h90]
    have : (if angle < 0 then Real.sin (-angle * Real.pi / 180) else Real.sin (angle * Real.pi / 180)) = absSin angle := by
      unfold absSin
      split
      · rename_i h; rw [abs_of_neg h]
      · rename_i h; rw [abs_of_nonneg (not_lt.1 h)]
    rw [this, if_neg hs.ne']

theorem transmission_ok {L : Library ℝ} {l : Layer ℝ} {e angle : ℝ} (hs : 0 < absSin angle) {t : Ext}
    (h : transmission pf fuel L l e angle = .ok t) :
    ∃ mu, totalMu pf fuel L l e = .ok mu ∧ 0 < l.density * l.thickness ∧
      t = .fin ((1 - l.funnyFactor) + l.funnyFactor * Real.exp (-(l.density * l.thickness / absSin angle * mu))) := by
  unfold transmission getTransmission at h
  obtain ⟨mu, h1, h⟩ := Outcome.bind_eq_ok.mp h
  refine ⟨mu, h1, ?_⟩
  rw [massThickness_sin l angle hs] at h
  dsimp only at h
  split at h
  · cases h
  · rename_i hn
    simp only [nonPositive, decide_eq_true_eq, not_le] at hn
    refine ⟨?_, ?_⟩
    · have := mul_pos hn hs
      rwa [div_mul_cancel₀ _ hs.ne'] at this
    · simp only [Outcome.pure_eq, Outcome.ok.injEq] at h
      rw [← h]
      rfl

/-- C68: a layer made of a material transmits according to the law of Beer and Lambert, with the path through the layer
at the angle and the coefficients of the mixture given by the material. -/
theorem C68_material (hpf : Library.ParserOK pf) (l : Layer ℝ) (hm : l.hasMaterial = true) (e angle : ℝ)
    (hs : 0 < absSin angle) (t : Ext)
    (h : transmission pf fuel (Library.run pf fuel (Library.empty on key) ops) l e angle = .ok t) :
    ∃ (G : String → SMap String ℝ) (M : String → Mu ℝ) (r : Mix ℝ),
      (∀ c ∈ l.material.composition, (Library.run pf fuel (Library.empty on key) ops).comp pf fuel c.1 = .ok (G c.1) ∧
        ∀ p ∈ G c.1, Library.ElementMu (Library.run pf fuel (Library.empty on key) ops) e p.1 (M p.1)) ∧
      Library.MixtureRule l.material.composition G M e r ∧ 0 < l.density * l.thickness ∧
      t = .fin ((1 - l.funnyFactor) +
        l.funnyFactor * Real.exp (-(l.density * l.thickness / absSin angle * r.total))) := by
  obtain ⟨mu, h1, h2, h3⟩ := transmission_ok hs h
  unfold totalMu at h1
  rw [if_pos hm] at h1
  obtain ⟨r, hr, h1⟩ := Outcome.bind_eq_ok.mp h1
  obtain ⟨G, M, hG, -, hrule⟩ := Library.C31_mixture_rule pf hpf fuel on key ops fuel _ e r hr
  refine ⟨G, M, r, fun c hc => ⟨(hG c hc).2.1, (hG c hc).2.2.2⟩, hrule, h2, ?_⟩
  cases h1
  exact h3

/-- C68: a layer made of an element of the library uses the coefficients of the element. -/
theorem C68_element (L : Library ℝ) (l : Layer ℝ) (hm : l.hasMaterial = false) (e angle : ℝ)
    (hs : 0 < absSin angle) (t : Ext) (m : Mu ℝ) (hel : Library.ElementMu L e l.materialName m)
    (h : transmission pf fuel L l e angle = .ok t) :
    t = .fin ((1 - l.funnyFactor) +
        l.funnyFactor * Real.exp (-(l.density * l.thickness / absSin angle * m.total))) := by
  obtain ⟨mu, h1, h2, h3⟩ := transmission_ok hs h
  unfold totalMu at h1
  rw [hm] at h1
  simp only [Bool.false_eq_true, if_false] at h1
  obtain ⟨r, hr, h1⟩ := Outcome.bind_eq_ok.mp h1
  obtain ⟨r', hr', -, -, -, -, -, hx⟩ := Library.C31_element_name pf L fuel _ e m hel
  rw [hr'] at hr
  cases hr
  cases h1
  rw [h3, hx]

/-- C68: anything else is named for the mixture of its elements. -/
theorem C68_substance (l : Layer ℝ) (hm : l.hasMaterial = false) (e angle : ℝ)
    (hs : 0 < absSin angle) (t : Ext) (hne : l.materialName ≠ "")
    (hn : ∀ el, (Library.run pf fuel (Library.empty on key) ops).getElement l.materialName ≠ .ok el)
    (h : transmission pf fuel (Library.run pf fuel (Library.empty on key) ops) l e angle = .ok t) :
    ∃ (c : SMap String ℝ) (r : Mix ℝ),
      composition pf fuel (Library.run pf fuel (Library.empty on key) ops) l = .ok c ∧
      massAttenuation pf fuel (Library.run pf fuel (Library.empty on key) ops) l e = .ok r ∧
      t = .fin ((1 - l.funnyFactor) +
        l.funnyFactor * Real.exp (-(l.density * l.thickness / absSin angle * r.total))) := by
  obtain ⟨mu, h1, h2, h3⟩ := transmission_ok hs h
  unfold totalMu at h1
  rw [hm] at h1
  simp only [Bool.false_eq_true, if_false] at h1
  obtain ⟨r, hr, h1⟩ := Outcome.bind_eq_ok.mp h1
  rw [Library.C31_substance_name pf _ fuel _ e hn hne (Library.inv_run pf fuel on key ops)] at hr
  obtain ⟨c, hc, hr⟩ := Outcome.bind_eq_ok.mp hr
  split at hr
  · cases hr
  · have hcomp : composition pf fuel (Library.run pf fuel (Library.empty on key) ops) l = .ok c := by
      unfold composition
      rw [hm]
      exact hc
    refine ⟨c, r, hcomp, ?_, ?_⟩
    · unfold massAttenuation
      rw [hcomp]
      exact hr
    · cases h1
      exact h3

/-- C68: the transmission is calculated whenever the coefficient is known and the layer has a mass. -/
theorem C68_defined (L : Library ℝ) (l : Layer ℝ) (e angle mu : ℝ) (hs : 0 < absSin angle)
    (hl : 0 < l.density * l.thickness) (hmu : totalMu pf fuel L l e = .ok mu) :
    transmission pf fuel L l e angle = .ok (.fin ((1 - l.funnyFactor) +
      l.funnyFactor * Real.exp (-(l.density * l.thickness / absSin angle * mu)))) := by
  unfold transmission getTransmission
  rw [hmu, Outcome.ok_bind, massThickness_sin l angle hs]
  dsimp only
  rw [if_neg (by simpa [nonPositive] using div_pos hl hs)]
  rfl

example : 0 < absSin (-45) := by
  unfold absSin
  rw [abs_of_neg (by norm_num), show -(-45 : ℝ) * Real.pi / 180 = Real.pi / 4 by ring, Real.sin_pi_div_four]
  positivity

end absorption

/-! ### C69: the peak families of a layer -/

section families

variable {K : Type} [Field K] [LinearOrder K] [IsStrictOrderedRing K] [Trans K] [Trig K]

theorem addNames_mem (names acc : List String) (x : String) : x ∈ addNames acc names ↔ x ∈ acc ∨ x ∈ names := by
  induction names generalizing acc with
  | nil => simp [addNames]
  | cons n names ih =>
    show x ∈ addNames (if n ∈ acc then acc else acc ++ [n]) names ↔ _
    rw [ih]
    split
    · rename_i h
      constructor
      · rintro (h1 | h1)
        · exact Or.inl h1
        · exact Or.inr (List.mem_cons_of_mem _ h1)
      · rintro (h1 | h1)
        · exact Or.inl h1
        · rcases List.mem_cons.1 h1 with rfl | h1
          · exact Or.inl h
          · exact Or.inr h1
    · simp [or_assoc]

theorem addNames_nodup (names acc : List String) (h : acc.Nodup) : (addNames acc names).Nodup := by
  induction names generalizing acc with
  | nil => exact h
  | cons n names ih =>
    refine ih _ ?_
    show (if n ∈ acc then acc else acc ++ [n]).Nodup
    split
    · exact h
    · rename_i hn
      rw [List.nodup_append]
      exact ⟨h, by simp, fun a ha b hb => by rintro rfl; exact hn (by simpa using List.mem_singleton.1 hb ▸ ha)⟩

theorem elementsLoop_ok (pf : String → Outcome (SMap String K)) (fuel : Nat) (L : Library K) (items : List (String × K))
    (acc names : List String) (h : elementsLoop pf fuel L items acc = .ok names) :
    (acc.Nodup → names.Nodup) ∧
    ∀ x, x ∈ names ↔ x ∈ acc ∨ ∃ c ∈ items, ∃ g, L.comp pf fuel c.1 = .ok g ∧ x ∈ SMap.keys g := by
  induction items generalizing acc with
  | nil =>
    simp only [elementsLoop, Outcome.ok.injEq] at h
    subst h
    exact ⟨id, fun x => by simp⟩
  | cons c items ih =>
    obtain ⟨n, w⟩ := c
    rw [elementsLoop] at h
    obtain ⟨g, hg, h⟩ := Outcome.bind_eq_ok.mp h
    obtain ⟨h1, h2⟩ := ih _ h
    refine ⟨fun ha => h1 (addNames_nodup _ _ ha), fun x => ?_⟩
    rw [h2, addNames_mem]
    constructor
    · rintro ((h3 | h3) | ⟨c, hc, h3⟩)
      · exact Or.inl h3
      · exact Or.inr ⟨_, List.mem_cons_self, g, hg, h3⟩
      · exact Or.inr ⟨c, List.mem_cons_of_mem _ hc, h3⟩
    · rintro (h3 | ⟨c, hc, g', hg', h3⟩)
      · exact Or.inl (Or.inl h3)
      · rcases List.mem_cons.1 hc with rfl | hc
        · rw [hg] at hg'
          cases hg'
          exact Or.inl (Or.inr h3)
        · exact Or.inr ⟨c, hc, g', hg', h3⟩

/-- `x` is an element of a component of the layer. -/
def Contains (pf : String → Outcome (SMap String K)) (fuel : Nat) (L : Library K) (l : Layer K) (x : String) : Prop :=
  if l.hasMaterial then ∃ c ∈ l.material.composition, ∃ g, L.comp pf fuel c.1 = .ok g ∧ x ∈ SMap.keys g
  else ∃ g, L.comp pf fuel l.materialName = .ok g ∧ x ∈ SMap.keys g

/-- C69: the peak families of a layer are those of its elements excited at the energy, in ascending order, each once. -/
theorem C69_families (pf : String → Outcome (SMap String K)) (hpf : Library.ParserOK pf) (fuel : Nat) (on : Bool)
    (key : EscapeKey K) (ops : List (Library.Op K)) (hmade : Library.ElementsMade ops)
    (srt : List (String × K) → List (String × K)) (hsrt : Library.SortsByEnergy srt) (l : Layer K) (e : K)
    (r : List (String × K))
    (h : peakFamilies pf fuel srt (Library.run pf fuel (Library.empty on key) ops) l e = .ok r) :
    r.Pairwise (fun a b => a.2 ≤ b.2) ∧
    (∀ fam b, (fam, b) ∈ r ↔ ∃ n, Contains pf fuel (Library.run pf fuel (Library.empty on key) ops) l n ∧
      ∃ el, (Library.run pf fuel (Library.empty on key) ops).getElement n = .ok el ∧
      ∃ s, fam = n ++ " " ++ String.ofList s ∧ Library.Family el.data e s b) ∧
    ((∀ n, Contains pf fuel (Library.run pf fuel (Library.empty on key) ops) l n → ' ' ∉ n.toList) →
      (r.map Prod.fst).Nodup) := by
  have hex : ∃ names : List String, names.Nodup ∧
      (Library.run pf fuel (Library.empty on key) ops).peakFamilies srt names e = .ok r ∧
      ∀ x, x ∈ names ↔ Contains pf fuel (Library.run pf fuel (Library.empty on key) ops) l x := by
    unfold peakFamilies at h
    unfold Contains
    split at h
    · rename_i hm
      obtain ⟨names, h1, h2⟩ := Outcome.bind_eq_ok.mp h
      obtain ⟨h3, h4⟩ := elementsLoop_ok pf fuel _ _ _ _ h1
      refine ⟨names, h3 List.nodup_nil, h2, fun x => ?_⟩
      rw [h4, if_pos hm]
      simp
    · rename_i hm
      unfold Library.peakFamiliesOf at h
      obtain ⟨c, h1, h2⟩ := Outcome.bind_eq_ok.mp h
      split at h2
      · cases h2
      · refine ⟨SMap.keys c, SMap.keys_nodup (Library.comp_sorted pf hpf _ (Library.inv_run pf fuel on key ops) fuel _ c h1),
          h2, fun x => ?_⟩
        rw [if_neg hm]
        constructor
        · intro hx; exact ⟨c, h1, hx⟩
        · rintro ⟨g, hg, hx⟩
          rw [h1] at hg
          cases hg
          exact hx
  obtain ⟨names, hnd, hr, hc⟩ := hex
  obtain ⟨h1, h2⟩ := Library.C32_families pf fuel on key ops hmade srt hsrt names e r hr
  refine ⟨h1, fun fam b => ?_, fun hsp => ?_⟩
  · rw [h2]
    constructor
    · rintro ⟨n, hn, h3⟩; exact ⟨n, (hc n).1 hn, h3⟩
    · rintro ⟨n, hn, h3⟩; exact ⟨n, (hc n).2 hn, h3⟩
  · exact Library.C32_once pf fuel on key ops hmade srt hsrt names hnd (fun n hn => hsp n ((hc n).1 hn)) e r hr

end families

section examples

attribute [local instance] Element.exampleTrans

/-- A layer of rust and iron. -/
def rustLayer : Layer ℚ := (new "surface" 5 1 1).run [.setMaterial
  { (Material.new : Material ℚ) with name := "corroded", composition := [("Fe", 1 / 2), ("rust", 1 / 2)] }]

/-- The hypotheses of C69 are met. -/
example : Library.ElementsMade Library.mixOps ∧ Library.SortsByEnergy Library.exampleSort ∧
    peakFamilies Library.examplePf 5 Library.exampleSort Library.mixLibrary rustLayer 7 =
      .ok [("Fe L3", 7 / 10), ("O L3", 7 / 10)] := by
  exact ⟨Library.mixOps_made, Library.exampleSort_ok, by decide +kernel⟩

/-- C69 is not about the composition of the layer if a component is unknown: then the composition is empty and there is no
attenuation, but the families of the other components are given. -/
theorem C69_unknown_component_violated :
    let l : Layer ℚ := (new "surface" 5 1 1).run [.setMaterial
      { (Material.new : Material ℚ) with name := "odd", composition := [("Fe", 1 / 2), ("unobtainium", 1 / 2)] }]
    composition Library.examplePf 5 Library.mixLibrary l = .ok [] ∧
    (massAttenuation Library.examplePf 5 Library.mixLibrary l 8).isOk = false ∧
    peakFamilies Library.examplePf 5 Library.exampleSort Library.mixLibrary l 7 = .ok [("Fe L3", 7 / 10)] := by
  decide +kernel

end examples

end Layer
end Fisx
