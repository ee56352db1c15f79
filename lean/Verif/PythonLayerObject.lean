import Verif.PythonLayer
import Verif.PythonMore
import Verif.LayerLibrary

/-!
# PyLayer: a layer made in Python (C199)

/repo/python/cython/PyLayer.pyx: the constructor, `setMaterial`, and the three questions, with the interface of Python 3.
-/

set_option linter.unusedSectionVars false

namespace Fisx
namespace Python

section model

variable {K : Type} [Field K] [LinearOrder K]

/-- PyLayer.pyx:45-47, `PyLayer(materialName, density=1.0, thickness=1.0, funny=1.0)`; `none` is an argument not given. -/
def layerNew (name : Text) (density thickness funny : Option K) : Result (Layer K) := do
  let n ← stdString (toBytes name)
  return Layer.new n (density.getD 1) (thickness.getD 1) (funny.getD 1)

/-- PyLayer.pyx:72-78, `setMaterial`: Cython lets `None` pass as an instance, and its pointer is then read. -/
def layerSetMaterial (l : Layer K) (m : Option (Material K)) : Result (Layer K) :=
  match m with
  | some m => .value (l.setMaterial m)
  | none => .ub .nullDeref

/-- Several calls of `setMaterial`. -/
def layerSetMaterials (l : Layer K) : List (Option (Material K)) → Result (Layer K)
  | [] => .value l
  | m :: rest => (layerSetMaterial l m).bind (fun l => layerSetMaterials l rest)

end model

/-! ## Specification and proofs -/

section general

variable {K : Type} [Field K] [LinearOrder K] [IsStrictOrderedRing K]

/-- A layer made in Python with these arguments, then given these materials in this order. -/
def MadeOf (name : Text) (density thickness funny : Option K) (ms : List (Material K)) (l : Layer K) : Prop :=
  ((layerNew name density thickness funny).bind (fun l => layerSetMaterials l (ms.map some))) = .value l

theorem setMaterials_run : ∀ (ms : List (Material K)) (l : Layer K),
    layerSetMaterials l (ms.map some) = .value (l.run (ms.map Layer.Op.setMaterial)) := by
  intro ms
  induction ms with
  | nil => intro l; rfl
  | cons m rest ih =>
    intro l
    show layerSetMaterials (l.setMaterial m) (rest.map some) = _
    rw [ih]
    rfl

theorem madeOf_iff {name : Text} {density thickness funny : Option K} {ms : List (Material K)} {l : Layer K} :
    MadeOf name density thickness funny ms l ↔
      l = (Layer.new name.get (density.getD 1) (thickness.getD 1) (funny.getD 1)).run (ms.map Layer.Op.setMaterial) := by
  unfold MadeOf layerNew
  rw [stdString_toBytes]
  simp only [do_bind, value_bind, pure_value, setMaterials_run, Result.value.injEq]
  exact eq_comm

/-- **C199** (construction) A layer can be made in Python from any name, `str` or `bytes`, and given any materials; there is one
result, and it is the same for the two kinds of name. -/
theorem C199_made (s : String) (density thickness funny : Option K) (ms : List (Material K)) :
    ∃ l, (∀ l', MadeOf (.str s) density thickness funny ms l' ↔ l' = l) ∧
      (∀ l', MadeOf (.bytes s) density thickness funny ms l' ↔ l' = l) :=
  ⟨_, fun _ => madeOf_iff, fun _ => madeOf_iff⟩

/-- **C199** (sizes) The density and the thickness given to the constructor are those of the layer, whatever the materials; they
are 1 where they are not given. A thickness of 0 or less, and a density below 0, are replaced by those of the first material. -/
theorem C199_sizes {name : Text} {density thickness funny : Option K} {ms : List (Material K)} {l : Layer K}
    (h : MadeOf name density thickness funny ms l) :
    (thickness = none → l.thickness = 1) ∧ (density = none → l.density = 1) ∧
    (∀ t, thickness = some t → 0 < t → l.thickness = t) ∧ (∀ d, density = some d → 0 < d → l.density = d) ∧
    (∀ m rest, ms = m :: rest → 0 < m.defaultDensity → 0 < m.defaultThickness →
      (∀ t, thickness = some t → t ≤ 0 → l.thickness = m.defaultThickness) ∧
      (∀ d, density = some d → d < 0 → l.density = m.defaultDensity)) := by
  rw [madeOf_iff] at h
  have hT : ∀ op ∈ ms.map Layer.Op.setMaterial, ¬ Layer.SetsThickness op := by
    intro op hop
    obtain ⟨m, -, rfl⟩ := List.mem_map.1 hop
    exact id
  have hD : ∀ op ∈ ms.map Layer.Op.setMaterial, ¬ Layer.SetsDensity op := by
    intro op hop
    obtain ⟨m, -, rfl⟩ := List.mem_map.1 hop
    exact id
  have hw := Layer.C09_constructor_wins name.get (density.getD 1) (thickness.getD 1) (funny.getD 1)
    (ms.map Layer.Op.setMaterial)
  rw [← h] at hw
  refine ⟨?_, ?_, ?_, ?_, ?_⟩
  · rintro rfl
    exact hw.1 one_pos hT
  · rintro rfl
    exact hw.2 one_pos hD
  · rintro t rfl ht
    exact hw.1 ht hT
  · rintro d rfl hd
    exact hw.2 hd hD
  · rintro m rest rfl h1 h2
    have := Layer.C86_thickness_partial name.get (density.getD 1) (thickness.getD 1) (funny.getD 1) []
      (rest.map Layer.Op.setMaterial) m ⟨h1, h2⟩ (by simp)
      (fun op hop => hT op (by simp only [List.nil_append] at hop; simp only [List.map_cons]; exact List.mem_cons_of_mem _ hop))
      (fun op hop => hD op (by simp only [List.nil_append] at hop; simp only [List.map_cons]; exact List.mem_cons_of_mem _ hop))
    rw [List.nil_append] at this
    rw [List.map_cons] at h
    rw [← h] at this
    constructor
    · rintro t rfl ht
      exact this.1 ht
    · rintro d rfl hd
      exact this.2 hd

/-- **C199** (composition) `getComposition` answers exactly when the library can resolve what the layer is made of, which is the
material given last, or what is named where none was given; the dictionary has the elements as `str` with their fractions. -/
theorem C199_composition (pf : String → Outcome (SMap String K)) (fuel : Nat) (L : Library K) {name : Text}
    {density thickness funny : Option K} {ms : List (Material K)} {l : Layer K} (h : MadeOf name density thickness funny ms l)
    (d : List (Text × K)) :
    layerComposition pf fuel L l = .value d ↔ ∃ r : SMap String K,
      (match ms.getLast? with
        | some m => L.compMap pf [] fuel m.composition
        | none => L.comp pf fuel name.get) = .ok r ∧ d = r.map (fun p => (Text.str p.1, p.2)) := by
  rw [madeOf_iff] at h
  have hc : l.composition pf fuel L = (match ms.getLast? with
        | some m => L.compMap pf [] fuel m.composition
        | none => L.comp pf fuel name.get) := by
    cases hm : ms.getLast? with
    | none =>
      rw [List.getLast?_eq_none_iff] at hm
      subst hm
      rw [h]
      exact Layer.C67_constructor pf fuel L name.get _ _ _ [] (by simp)
    | some m =>
      obtain ⟨ys, rfl⟩ := List.getLast?_eq_some_iff.1 hm
      rw [List.map_append] at h
      rw [h]
      exact (Layer.C67_material pf fuel L _ (ys.map Layer.Op.setMaterial) [] m (by simp)).1
  unfold layerComposition
  rw [hc]
  generalize (match ms.getLast? with
        | some m => L.compMap pf [] fuel m.composition
        | none => L.comp pf fuel name.get) = o
  cases o with
  | ok r =>
    simp only [bare, value_bind, toStringKeys, List.map_map, Result.value.injEq, Outcome.ok.injEq, exists_eq_left']
    exact ⟨fun hh => hh.symm, fun hh => hh.symm⟩
  | throw e => simp [bare, Result.bind]
  | ub e => simp [bare, Result.bind]
  | diverge => simp [bare, Result.bind]

/-- **C199** (families) For a library made by any calls, `getPeakFamilies` gives in Python the list of C++, unchanged, with names
as `str`: in ascending order of the binding energies, the families of the elements of the layer excited at the energy. -/
theorem C199_families [Trans K] [Trig K] (pf : String → Outcome (SMap String K)) (hpf : Library.ParserOK pf) (fuel : Nat) (on : Bool)
    (key : EscapeKey K) (ops : List (Library.Op K)) (hmade : Library.ElementsMade ops)
    (srt : List (String × K) → List (String × K)) (hsrt : Library.SortsByEnergy srt) (l : Layer K) (e : K)
    (r : List (Text × K))
    (h : layerPeakFamilies pf fuel srt (Library.run pf fuel (Library.empty on key) ops) l e = .value r) :
    (∃ r0, l.peakFamilies pf fuel srt (Library.run pf fuel (Library.empty on key) ops) e = .ok r0 ∧
      r = r0.map (fun p => (Text.str p.1, p.2))) ∧
    r.Pairwise (fun a b => a.2 ≤ b.2) ∧
    (∀ fam b, (fam, b) ∈ r ↔ ∃ n, Layer.Contains pf fuel (Library.run pf fuel (Library.empty on key) ops) l n ∧
      ∃ el, (Library.run pf fuel (Library.empty on key) ops).getElement n = .ok el ∧
      ∃ s, fam = .str (n ++ " " ++ String.ofList s) ∧ Library.Family el.data e s b) := by
  unfold layerPeakFamilies at h
  rw [bind_eq_value] at h
  obtain ⟨r0, h0, h1⟩ := h
  rw [guarded_iff] at h0
  obtain ⟨g1, g2, -⟩ := Layer.C69_families pf hpf fuel on key ops hmade srt hsrt l e r0 h0
  have hs : r0.mergeSort (fun a b => decide (a.2 ≤ b.2)) = r0 :=
    List.mergeSort_of_pairwise (g1.imp (fun hh => by simpa using hh))
  rw [hs] at h1
  injection h1 with h1
  subst h1
  refine ⟨⟨r0, h0, rfl⟩, ?_, ?_⟩
  · rw [List.pairwise_map]
    exact g1
  · intro fam b
    rw [List.mem_map]
    constructor
    · rintro ⟨p, hp, hh⟩
      injection hh with e1 e2
      obtain ⟨n, c1, el, c2, s, c3, c4⟩ := (g2 p.1 p.2).1 hp
      exact ⟨n, c1, el, c2, s, by rw [← e1, c3], by rw [← e2]; exact c4⟩
    · rintro ⟨n, c1, el, c2, s, rfl, c4⟩
      exact ⟨(_, b), (g2 _ b).2 ⟨n, c1, el, c2, s, rfl, c4⟩, rfl⟩

/-- **C199** violated: `None` given for the material is not refused, as in every class that takes an instance: the null pointer is
read. -/
theorem C199_none_violated (l : Layer K) (rest : List (Option (Material K))) :
    layerSetMaterials l (none :: rest) = .ub .nullDeref := rfl

end general

/-- The energies asked for: one, or those of a list. -/
def asked : Arg ℝ → List ℝ
  | .one e => [e]
  | .many es => es

/-- **C199** (transmission) For a layer whose mass per area seen by the beam is positive: `getTransmission` gives a list with a
number for each energy, for a single energy a list of one; each is the Beer-Lambert law with the coefficient of the library for
what the layer is made of, whichever energies are asked for together. -/
theorem C199_transmission_partial (pf : String → Outcome (SMap String ℝ)) (fuel : Nat) (L : Library ℝ) (l : Layer ℝ)
    (energies : Arg ℝ) (angle : ℝ) (hs : angle = 90 ∨ Real.sin (|angle| * Real.pi / 180) ≠ 0) (hpos : 0 < seen l angle)
    (hne : energies ≠ .many []) (ts : List Layer.Ext) :
    layerTransmission pf fuel L l energies angle = .value ts ↔
      List.Forall₂ (fun e t => ∃ m : Mix ℝ,
        (if l.hasMaterial then L.mixMu pf fuel l.material.composition e false else L.nameMu pf fuel l.materialName e) = .ok m ∧
        t = .fin ((1 - l.funnyFactor) + l.funnyFactor * Real.exp (-(seen l angle * m.total))))
      (asked energies) ts := by
  have hd := massThickness_seen hs (l := l)
  have hn : Layer.nonPositive (Layer.Ext.fin (seen l angle)) = false := by simp [Layer.nonPositive, hpos]
  rw [show asked energies = beamEnergies energies by cases energies <;> rfl]
  have hes : beamEnergies energies ≠ [] := by
    cases energies with
    | one e => simp [beamEnergies]
    | many es => intro hh; exact hne (by rw [show es = [] from hh])
  unfold layerTransmission layerTransmissions Layer.getTransmissions
  generalize beamEnergies energies = es at hes ⊢
  have hmus : ∀ ms, (if l.hasMaterial then L.mixMus pf fuel l.material.composition es false else L.nameMus pf fuel l.materialName es)
      = .ok ms ↔ List.Forall₂ (fun e m => (if l.hasMaterial then L.mixMu pf fuel l.material.composition e false
        else L.nameMu pf fuel l.materialName e) = .ok m) es ms := by
    intro ms
    by_cases hm : l.hasMaterial = true
    · simp only [hm, if_true]
      exact Library.C31_energies pf L fuel _ es hes false ms
    · simp only [hm, Bool.false_eq_true, if_false]
      rw [Library.C75_library_coefficients pf L fuel _ es hes]
      clear hes
      induction es generalizing ms with
      | nil => simp [each, eq_comm]
      | cons e rest ih => 
        unfold each
        rw [Outcome.bind_eq_ok]
        constructor
        · rintro ⟨r, h1, h2⟩
          rw [Outcome.bind_eq_ok] at h2
          obtain ⟨rs, h2, h3⟩ := h2
          rw [Outcome.pure_eq, Outcome.ok.injEq] at h3
          subst h3
          exact .cons h1 ((ih rs).1 h2)
        · intro h
          cases h with
          | cons h1 h2 => exact ⟨_, h1, by rw [(ih _).2 h2]; rfl⟩
  have hmap : ∀ ms ts, (List.Forall₂ (fun e m => (if l.hasMaterial then L.mixMu pf fuel l.material.composition e false
        else L.nameMu pf fuel l.materialName e) = .ok m) es ms ∧ ts = ms.map (fun m : Mix ℝ => Layer.Ext.fin ((1 - l.funnyFactor)
          + l.funnyFactor * Real.exp (-(seen l angle * m.total))))) →
      List.Forall₂ (fun e t => ∃ m : Mix ℝ,
        (if l.hasMaterial then L.mixMu pf fuel l.material.composition e false else L.nameMu pf fuel l.materialName e) = .ok m ∧
        t = .fin ((1 - l.funnyFactor) + l.funnyFactor * Real.exp (-(seen l angle * m.total)))) es ts := by
    rintro ms ts ⟨h1, rfl⟩
    rw [List.forall₂_map_right_iff]
    exact h1.imp (fun _ m hm => ⟨m, hm, rfl⟩)
  simp only [hd, hn, Bool.false_eq_true, if_false]
  constructor
  · intro h
    rcases hm : (if l.hasMaterial then L.mixMus pf fuel l.material.composition es false
      else L.nameMus pf fuel l.materialName es) with ms | _ | _ | _
    · rw [hm] at h
      simp only [Outcome.ok_bind, Outcome.pure_eq, bare, List.map_map, Result.value.injEq] at h
      exact hmap ms ts ⟨(hmus ms).1 hm, by rw [← h]; rfl⟩
    all_goals (rw [hm] at h; simp [bare] at h)
  · intro h
    have hex : ∃ ms : List (Mix ℝ), List.Forall₂ (fun e m => (if l.hasMaterial then L.mixMu pf fuel l.material.composition e false
        else L.nameMu pf fuel l.materialName e) = .ok m) es ms ∧ ts = ms.map (fun m : Mix ℝ => Layer.Ext.fin ((1 - l.funnyFactor)
          + l.funnyFactor * Real.exp (-(seen l angle * m.total)))) := by
      clear hmus hmap hes
      induction h with
      | nil => exact ⟨[], .nil, rfl⟩
      | cons h1 _ ih =>
        obtain ⟨m, a, b⟩ := h1
        obtain ⟨ms, c, d⟩ := ih
        exact ⟨m :: ms, .cons a c, by rw [b, d]; rfl⟩
    obtain ⟨ms, h1, rfl⟩ := hex
    rw [(hmus ms).2 h1]
    simp only [Outcome.ok_bind, Outcome.pure_eq, bare, List.map_map, Result.value.injEq]
    rfl

/-- A layer of iron given a thickness only, its name as `bytes`; and one whose thickness comes from its material. -/
example : ∃ l : Layer ℚ, MadeOf (.bytes "Fe") none (some (1 / 10)) none [] l ∧ l.density = 1 ∧ l.thickness = 1 / 10 ∧
    l.materialName = "Fe" := by
  refine ⟨_, madeOf_iff.2 rfl, ?_, ?_, ?_⟩ <;> rfl

example (m m' : Material ℚ) (h : 0 < m.defaultDensity ∧ 0 < m.defaultThickness) :
    ∃ l : Layer ℚ, MadeOf (.str "Steel") none (some (-1)) none [m, m'] l ∧ l.thickness = m.defaultThickness ∧
      l.material = m' := by
  refine ⟨_, madeOf_iff.2 rfl, ?_, rfl⟩
  exact ((C199_sizes (madeOf_iff.2 rfl)).2.2.2.2 m [m'] rfl h.1 h.2).1 (-1) rfl (by norm_num)

/-- The hypotheses of `C199_transmission_partial`: a layer made with the defaults, at 90 degrees. -/
example : ∃ l : Layer ℝ, MadeOf (.str "Fe") none none none [] l ∧ 0 < seen l 90 := by
  refine ⟨_, madeOf_iff.2 rfl, ?_⟩
  simp [seen, Layer.run, Layer.new]

end Python
end Fisx
