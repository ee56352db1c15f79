import Verif.PythonElements
import Verif.CachesXrf

/-!
# The caches in Python (C190)

The calls of PyElements on the caches of the library and its elements: what each one does to the library, and that no sequence of them
changes an answer of the library.
-/

set_option linter.unusedSectionVars false

namespace Fisx
namespace Python

variable {K : Type} [Field K] [LinearOrder K] [IsStrictOrderedRing K] [Trans K] [Trig K]

/-- The calls on the caches. -/
def Method.OnCaches {N D : Type} : Method N D K → Prop
  | .updateEscapeCache .. | .setElementCascadeCacheEnabled .. | .emptyElementCascadeCache .. | .fillCache .. | .updateCache ..
  | .setCacheEnabled .. | .setEscapeCacheEnabled .. | .clearCache .. => True
  | _ => False

/-- The calls that change the library otherwise. -/
def Method.Changes {N D : Type} : Method N D K → Prop
  | .addMaterial .. | .removeMaterials | .setShellConstantsFile .. | .setShellRadiativeTransitionsFile ..
  | .setMassAttenuationCoefficients .. | .setMassAttenuationCoefficientsFile .. => True
  | _ => False

/-- The queries about the caches themselves. -/
def Method.AboutCaches {N D : Type} : Method N D K → Prop
  | .isCacheEnabled .. | .isEscapeCacheEnabled | .getCacheSize .. => True
  | _ => False

/-- Numbers of vacancies: none negative, and those that are not zero in subshells from K to M5 (or all other ones). -/
def Vacancies (v : List (Text × K)) : Prop :=
  ∀ p ∈ v, 0 ≤ p.2 ∧ (0 < p.2 → p.1.get.toList = Element.allOther ∨ p.1.get.toList ∈ Element.keys)

/-- The vacancies given to a call, if any, are such. -/
def Method.Physical : Method Text (List (Text × K)) K → Prop
  | .getXRayLinesFromVacancyDistribution _ v _ _ => Vacancies v
  | _ => True

/-- A query leaves the library as it is. -/
theorem cxx_query (w : World K) (d : Init.Database K) (c : Method String (SMap String K) K) (h1 : ¬ c.OnCaches) (h2 : ¬ c.Changes) :
    (cxx w d c).2 = d := by
  cases c <;> first | rfl | exact absurd trivial h1 | exact absurd trivial h2

/-- A call on the caches is one of the calls on the caches of the library. -/
theorem cxx_cache (w : World K) (d : Init.Database K) (c : Method String (SMap String K) K) (h : c.OnCaches) :
    ∃ op : Library.Op K, op.OnCaches ∧ (cxx w d c).2 = { d with lib := (d.lib.step w.pf w.fuel op).2 } := by
  cases c
  case updateEscapeCache c es et it nt a t => exact ⟨.updateEscapeCache ⟨c, et, it, nt, a, t⟩ es, trivial, rfl⟩
  case setElementCascadeCacheEnabled n b => exact ⟨.onElement n (.setCascadeCacheEnabled b), trivial, rfl⟩
  case emptyElementCascadeCache n => exact ⟨.onElement n .emptyCascadeCache, trivial, rfl⟩
  case fillCache n es => exact ⟨.onElement n (.fillCache es), trivial, rfl⟩
  case updateCache n es => exact ⟨.onElement n (.updateCache es), trivial, rfl⟩
  case setCacheEnabled n b => exact ⟨.onElement n (.setCacheEnabled b), trivial, rfl⟩
  case setEscapeCacheEnabled b => exact ⟨.setEscapeCacheEnabled b, trivial, rfl⟩
  case clearCache n => exact ⟨.onElement n .clearCache, trivial, rfl⟩
  all_goals exact h.elim

theorem onCaches_plain (c : Method Text (List (Text × K)) K) : c.plainNames.OnCaches ↔ c.OnCaches := by
  cases c <;> exact Iff.rfl

theorem changes_plain (c : Method Text (List (Text × K)) K) : c.plainNames.Changes ↔ c.Changes := by
  cases c <;> exact Iff.rfl

theorem onCaches_accepted {c : Method Text (List (Text × K)) K} (h : c.OnCaches) : c.Accepted := by
  cases c <;> trivial

/-- What a sequence of calls on the caches does. -/
theorem pyRun_caches (w : World K) (hw : ∀ l, (w.srt l).Pairwise (fun a b => a.2 ≤ b.2)) :
    ∀ (cs : List (Method Text (List (Text × K)) K)) (d : Init.Database K), (∀ c ∈ cs, c.OnCaches) →
      ∃ ops : List (Library.Op K), (∀ op ∈ ops, op.OnCaches) ∧ (pyRun w d cs).2 = { d with lib := d.lib.run w.pf w.fuel ops }
  | [], d, _ => ⟨[], by simp, rfl⟩
  | c :: cs, d, h => by
    have hc := h c (by simp)
    obtain ⟨op, h1, h2⟩ := cxx_cache w d c.plainNames ((onCaches_plain c).2 hc)
    have h3 := C190_call_partial w hw d c (onCaches_accepted hc)
    obtain ⟨ops, h4, h5⟩ := pyRun_caches w hw cs (py w d c).2 (fun c hc => h c (by simp [hc]))
    refine ⟨op :: ops, ?_, ?_⟩
    · intro o ho
      rcases List.mem_cons.1 ho with rfl | ho
      · exact h1
      · exact h4 o ho
    · simp only [pyRun]
      rw [h5, h3, h2]
      rfl

section emitted

theorem transitionEnergy_congr {a b : Element K} (h : a.binding = b.binding) (t : Str) :
    a.getTransitionEnergy t = b.getTransitionEnergy t := by
  unfold Element.getTransitionEnergy Element.innerEnergy Element.outerEnergy
  rw [h]

theorem emitted_congr {a b : Element K} (h : a.binding = b.binding) (hs : a.shells = b.shells) (x : K) :
    a.getEmittedXRayLines x = b.getEmittedXRayLines x := by
  have h1 : ∀ (s : Shell K) (l : List (Str × K)) (acc : SMap Str K), a.emittedOfShell s l acc = b.emittedOfShell s l acc := by
    intro s l
    induction l with
    | nil => intro acc; rfl
    | cons p l ih =>
      intro acc
      unfold Element.emittedOfShell
      simp only [transitionEnergy_congr h, ih]
  have h2 : ∀ (ks : List Str) (acc : SMap Str K), a.emittedLoop x ks acc = b.emittedLoop x ks acc := by
    intro ks
    induction ks with
    | nil => intro acc; rfl
    | cons k ks ih =>
      intro acc
      unfold Element.emittedLoop
      simp only [h, hs, h1, ih]
  exact h2 _ _

theorem cascade_congr {a b : Element K} (hs : a.shells = b.shells) (v : SMap Str K) : a.getCascade v = b.getCascade v := by
  unfold Element.getCascade Element.initialVector
  rw [hs]

end emitted

/-- Elements whose data are the same answer alike. -/
theorem getElement_valid {L L0 : Library K} {pf : String → Outcome (SMap String K)} {fuel : Nat} (hV : Library.Valid pf fuel L0 L)
    (n : String) {γ : Type} {f : LibElement K → Outcome γ}
    (hf : ∀ a b, b ∈ L0.elements → a.name = b.name → a.mass = b.mass → Element.Valid b.data a.data → f a = f b) :
    (L.getElement n).bind f = (L0.getElement n).bind f := by
  have h := Library.forall₂_imp_mem (S := fun a b => f a = f b) hV.elements (fun a b hb h => hf a b hb h.1 h.2.1 h.2.2)
  unfold Library.getElement Library.isElementNameDefined
  rw [hV.dict]
  generalize (if n.length = 0 then false else L0.dict.mem n) = b
  cases b with
  | false => rfl
  | true =>
    rw [if_pos rfl, if_pos rfl]
    cases L0.dict.find? n with
    | none => rfl
    | some i => exact Library.vget_bind h i (fun a b h => h)

theorem vacancies_dict {v : List (Text × K)} (hv : Vacancies v) : SMap.Sorted (unnamed (dictOf v)) ∧
    (∀ p ∈ unnamed (dictOf v), 0 ≤ p.2) ∧
    ∀ p ∈ unnamed (dictOf v), 0 < p.2 → p.1 = Element.allOther ∨ p.1 ∈ Element.keys := by
  have key : ∀ p ∈ unnamed (dictOf v), ∃ q ∈ v, p.1 = q.1.get.toList ∧ p.2 = q.2 := by
    intro p hp
    obtain ⟨q, hq, rfl⟩ := List.mem_map.1 (SMap.ofList_mem hp)
    obtain ⟨r, hr, rfl⟩ := List.mem_map.1 (SMap.ofList_mem hq)
    exact ⟨r, hr, rfl, rfl⟩
  refine ⟨SMap.ofList_sorted _, fun p hp => ?_, fun p hp h => ?_⟩
  · obtain ⟨q, hq, _, h2⟩ := key p hp
    rw [h2]; exact (hv q hq).1
  · obtain ⟨q, hq, h1, h2⟩ := key p hp
    rw [h1]; exact (hv q hq).2 (by rw [← h2]; exact h)

/-- **C190** Whatever calls on the caches are made in Python, in whatever order and with whatever outcome, every later call that asks for
data or for a physical quantity gives the answer, or raises the exception, that it would have given before them. -/
theorem C190_caches (hexp : Element.ExpNonneg K) (w : World K) (hw : ∀ l, (w.srt l).Pairwise (fun a b => a.2 ≤ b.2)) (d : Init.Database K)
    (hc : Library.Cacheable d.lib) (h0 : Library.Clear d.lib) (cs : List (Method Text (List (Text × K)) K)) (hcs : ∀ c ∈ cs, c.OnCaches)
    (c : Method Text (List (Text × K)) K) (h1 : ¬ c.OnCaches) (h2 : ¬ c.Changes) (h3 : ¬ c.AboutCaches) (h4 : c.Physical) :
    (py w (pyRun w d cs).2 c).1 = (py w d c).1 := by
  have hacc : c.Accepted := by
    cases c <;> first | exact trivial | exact absurd trivial h2
  rw [C190_call_partial w hw _ c hacc, C190_call_partial w hw _ c hacc]
  obtain ⟨ops, hops, he⟩ := pyRun_caches w hw cs d hcs
  rw [he]
  have hV : Library.Valid w.pf w.fuel d.lib (d.lib.run w.pf w.fuel ops) :=
    Library.Valid.run hexp hc h0 ops (Library.Valid.start h0) hops
  have ha := hV.alike hexp hc h0
  generalize d.lib.run w.pf w.fuel ops = L at hV ha
  suffices hmain : (cxx w { d with lib := L } c.plainNames).1 = (cxx w d c.plainNames).1 from congrArg shown hmain
  have hel : ∀ (n : String) {γ : Type} {f : LibElement K → Outcome γ},
      (∀ a b, b ∈ d.lib.elements → a.name = b.name → a.mass = b.mass → Element.Valid b.data a.data → f a = f b) →
      (L.getElement n).bind f = (d.lib.getElement n).bind f := fun n _ _ hf => getElement_valid hV n hf
  have hbind : ∀ {a b : Element K}, Element.Valid b a → a.binding = b.binding := by
    intro a b h
    have : a.bare.binding = b.bare.binding := by rw [h.same]
    exact this
  have hper : ∀ n, Init.periodicOf { d with lib := L } n = Init.periodicOf d n := by
    intro n
    unfold Init.periodicOf Library.isElementNameDefined
    simp only [hV.dict]
  have hat : ∀ {a b : LibElement K}, Element.Valid b.data a.data → a.data.atomicNumber = b.data.atomicNumber := by
    intro a b h
    have : a.data.bare.atomicNumber = b.data.bare.atomicNumber := by rw [h.same]
    exact this
  have hsh : ∀ {a b : LibElement K} (s : Str), Element.Valid b.data a.data → Init.getShell a.data s = Init.getShell b.data s := by
    intro a b s h
    unfold Init.getShell
    rw [h.emission.shells]
    rfl
  cases c
  case updateEscapeCache => exact absurd trivial h1
  case setElementCascadeCacheEnabled => exact absurd trivial h1
  case emptyElementCascadeCache => exact absurd trivial h1
  case fillCache => exact absurd trivial h1
  case updateCache => exact absurd trivial h1
  case setCacheEnabled => exact absurd trivial h1
  case setEscapeCacheEnabled => exact absurd trivial h1
  case clearCache => exact absurd trivial h1
  case addMaterial => exact absurd trivial h2
  case removeMaterials => exact absurd trivial h2
  case setShellConstantsFile => exact absurd trivial h2
  case setShellRadiativeTransitionsFile => exact absurd trivial h2
  case setMassAttenuationCoefficients => exact absurd trivial h2
  case setMassAttenuationCoefficientsFile => exact absurd trivial h2
  case isCacheEnabled => exact absurd trivial h3
  case isEscapeCacheEnabled => exact absurd trivial h3
  case getCacheSize => exact absurd trivial h3
  all_goals simp only [Method.plainNames, Method.map, cxx, asks]
  case getElementNames =>
    have : L.getElementNames = d.lib.getElementNames := by
      unfold Library.getElementNames
      have := ha.elements
      generalize L.elements = l at this
      generalize d.lib.elements = m at this
      induction this with
      | nil => rfl
      | cons h _ ih => simp only [List.map_cons, h.name, ih]
    rw [this]
  case getMaterialNames => unfold Library.getMaterialNames; rw [hV.materials]
  case getAtomicMass n =>
    congr 1
    exact hel n.get (f := fun e => .ok e.mass) (fun a b _ _ h _ => by rw [h])
  case getAtomicNumber n =>
    congr 1
    exact hel n.get (f := fun e => .ok e.data.atomicNumber) (fun a b _ _ _ h => by rw [hat h])
  case getDensity n => unfold Init.getDensity; rw [hper]
  case getLongName n => unfold Init.getLongName; rw [hper]
  case getColumn n => unfold Init.getColumn; rw [hper]
  case getComposition n => rw [ha.comp]
  case getShellConstantsFile => rfl
  case getShellRadiativeTransitionsFile => rfl
  case getShellNonradiativeTransitionsFile => rfl
  case getPeakFamilies n e => rw [ha.familiesOfName]
  case getPeakFamiliesList l e => rw [ha.families]
  case getBindingEnergies n =>
    congr 1
    exact hel n.get (f := fun e => .ok e.data.binding) (fun a b _ _ _ h => by rw [hbind h])
  case getEscape => rw [hV.getEscape hexp hc h0]
  case getShellConstants n s =>
    congr 1
    exact hel n.get (f := fun e => (Init.getShell e.data s.get.toList).bind (fun t => .ok t.constants))
      (fun a b _ _ _ h => by rw [hsh _ h])
  case getRadiativeTransitions n s =>
    congr 1
    exact hel n.get (f := fun e => (Init.getShell e.data s.get.toList).bind (fun t => .ok t.radiative))
      (fun a b _ _ _ h => by rw [hsh _ h])
  case getNonradiativeTransitions n s =>
    congr 1
    exact hel n.get (f := fun e => (Init.getShell e.data s.get.toList).bind (fun t => .ok t.nonradiative))
      (fun a b _ _ _ h => by rw [hsh _ h])
  case getEmittedXRayLines n e =>
    exact hel n.get (fun a b _ _ _ h => by simp only [emitted_congr (hbind h) h.emission.shells])
  case getInitialPhotoelectricVacancyDistribution n e =>
    refine hel n.get (fun a b hb _ _ h => ?_)
    have hs := Element.Valid.start (h0.cascade b hb) (h0.mu b hb) (h0.exc b hb)
    simp only [h.vacancies, hs.vacancies]
  case getCascadeModifiedVacancyDistribution n v =>
    exact hel n.get (fun a b _ _ _ h => by rw [cascade_congr (a := a.data) (b := b.data) h.emission.shells])
  case getXRayLinesFromVacancyDistribution n v c u =>
    obtain ⟨g1, g2, g3⟩ := vacancies_dict h4
    refine hel n.get (fun a b hb _ _ h => ?_)
    have hs := Element.Valid.start (h0.cascade b hb) (h0.mu b hb) (h0.exc b hb)
    have hk : b.data.shells.keys = Element.keys := (hc b hb).keys
    have hd : SMap.Sorted (unnamed (dictOf v)) ∧ (∀ p ∈ unnamed (dictOf v), 0 ≤ p.2) ∧
        ∀ p ∈ unnamed (dictOf v), 0 < p.2 → p.1 = Element.allOther ∨ b.data.shells.mem p.1 = true := by
      refine ⟨g1, g2, fun p hp hp0 => (g3 p hp hp0).imp id (fun hm => ?_)⟩
      rw [← hk] at hm
      cases hf : b.data.shells.find? p.1 with
      | some v => simp [SMap.mem, hf]
      | none =>
        obtain ⟨q, hq, hqs⟩ := List.mem_map.1 hm
        exact absurd hqs ((SMap.find?_eq_none_iff _ _).1 hf q hq)
    rw [h.getLines (hc b hb) hd, hs.getLines (hc b hb) hd]

/-! ### What the changes do -/

/-- The call `r` of Python on `d` is the call `op` of the library of C++: the library changes as there, nothing else changes, there is no
answer, and an exception is the one of Python made of it. -/
def Acts (w : World K) (d : Init.Database K) (r : Result (Answer Text K) × Init.Database K) (op : Library.Op K) : Prop :=
  r.1 = (guarded (d.lib.step w.pf w.fuel op).1).bind (fun _ => .value .nothing) ∧
  r.2 = { d with lib := (d.lib.step w.pf w.fuel op).2 }

theorem acts_plain (w : World K) (d : Init.Database K) (c : Method String (SMap String K) K) (op : Library.Op K)
    (h : cxx w d c = ((d.lib.step w.pf w.fuel op).1.bind (fun _ => .ok .nothing), { d with lib := (d.lib.step w.pf w.fuel op).2 })) :
    Acts w d (through w d c plain) op := by
  unfold through Acts
  rw [h]
  refine ⟨?_, rfl⟩
  cases (d.lib.step w.pf w.fuel op).1 <;> rfl

/-- **C190** The calls that change the library are the calls of the library of C++ with the same arguments, each in its place: the number
of lines, the angle, the thickness and the two thresholds of updateEscapeCache, and the flags. A composition is the map of its
dictionary. -/
theorem C190_changes (w : World K) (d : Init.Database K) (n : Text) (es : List K) (b : Bool) (c : List (Text × K))
    (energyThreshold intensityThreshold alphaIn thickness : K) (nThreshold : Int) (m : Material K) :
    Acts w d (py w d (.setElementCascadeCacheEnabled n b)) (.onElement n.get (.setCascadeCacheEnabled b)) ∧
    Acts w d (py w d (.emptyElementCascadeCache n)) (.onElement n.get .emptyCascadeCache) ∧
    Acts w d (py w d (.fillCache n es)) (.onElement n.get (.fillCache es)) ∧
    Acts w d (py w d (.updateCache n es)) (.onElement n.get (.updateCache es)) ∧
    Acts w d (py w d (.setCacheEnabled n b)) (.onElement n.get (.setCacheEnabled b)) ∧
    Acts w d (py w d (.clearCache n)) (.onElement n.get .clearCache) ∧
    Acts w d (py w d (.setEscapeCacheEnabled b)) (.setEscapeCacheEnabled b) ∧
    Acts w d (py w d (.updateEscapeCache c es energyThreshold intensityThreshold nThreshold alphaIn thickness))
      (.updateEscapeCache { composition := dictOf c, energyThreshold := energyThreshold, intensityThreshold := intensityThreshold,
                            nThreshold := nThreshold, alphaIn := alphaIn, thickness := thickness } es) ∧
    Acts w d (py w d (.addMaterial m b)) (.addMaterialObject m b) ∧
    Acts w d (py w d .removeMaterials) .removeMaterials := by
  refine ⟨?_, ?_, ?_, ?_, ?_, ?_, ?_, ?_, ?_, ?_⟩
  all_goals
    simp only [py, stdString_toBytes, stdMap_dictOf, pre]
    exact acts_plain _ _ _ _ rfl

theorem guarded_value {α β : Type} {o : Outcome α} {f : α → β} {b : β} (h : (guarded o).bind (fun a => .value (f a)) = .value b) :
    ∃ a, o = .ok a ∧ f a = b := by
  cases o with
  | ok a => exact ⟨a, rfl, by simpa [guarded, value_bind] using h⟩
  | throw e => cases h
  | ub u => cases h
  | diverge => cases h

theorem Acts.made {w : World K} {d : Init.Database K} {r : Result (Answer Text K) × Init.Database K} {op : Library.Op K}
    (h : Acts w d r op) (h1 : r.1 = .value .nothing) : (d.lib.step w.pf w.fuel op).1 = .ok () := by
  rw [h.1] at h1
  obtain ⟨a, ha, _⟩ := guarded_value h1
  exact ha

theorem getElement_made {L : Library K} {n : String} {op : Element.Op K} (h : (L.onElement n op).1 = .ok ()) :
    ∃ e, L.getElement n = .ok e ∧ (L.onElement n op).2.getElement n = .ok { e with data := (e.data.step op).2 } := by
  have hx : ∃ i e, L.isElementNameDefined n = true ∧ L.dict.find? n = some i ∧ L.elements[i]? = some e := by
    unfold Library.onElement at h
    split at h
    · rename_i hd
      split at h
      · rename_i i hf
        split at h
        · rename_i e he
          exact ⟨i, e, hd, hf, he⟩
        · cases h
      · cases h
    · cases h
  obtain ⟨i, e, hd, hf, he⟩ := hx
  have hL : (L.onElement n op).2 = { L with elements := L.elements.set i { e with data := (e.data.step op).2 } } := by
    unfold Library.onElement
    simp only [hd, if_true, hf, he]
  have hi : i < L.elements.length := (List.getElem?_eq_some_iff.1 he).1
  refine ⟨e, ?_, ?_⟩
  · unfold Library.getElement vget
    simp only [hd, if_true, hf, he]
  · rw [hL]
    have hd' : Library.isElementNameDefined { L with elements := L.elements.set i { e with data := (e.data.step op).2 } } n = true := hd
    unfold Library.getElement
    rw [if_pos hd']
    simp only [hf]
    unfold vget
    rw [List.getElem?_set_self hi]

/-- **C190** The switches and the sizes asked from Python: isEscapeCacheEnabled tells the flag last given; isCacheEnabled the flag last
given for the element; after clearCache the size is zero and after fillCache it is the number of different energies among the first ten
thousand; removeMaterials leaves no material, and a material added is the last of the list or was there before. -/
theorem C190_switches (w : World K) (d : Init.Database K) (n n' : Text) (hn : n'.get = n.get) (es : List K) (b : Bool) (m : Material K) :
    (py w (py w d (.setEscapeCacheEnabled b)).2 .isEscapeCacheEnabled).1 = .value (.int (if b then 1 else 0)) ∧
    ((py w d (.setCacheEnabled n b)).1 = .value .nothing →
      (py w (py w d (.setCacheEnabled n b)).2 (.isCacheEnabled n')).1 = .value (.int (if b then 1 else 0))) ∧
    ((py w d (.clearCache n)).1 = .value .nothing → (py w (py w d (.clearCache n)).2 (.getCacheSize n')).1 = .value (.int 0)) ∧
    ((py w d (.fillCache n es)).1 = .value .nothing →
      (py w (py w d (.fillCache n es)).2 (.getCacheSize n')).1 = .value (.int (es.take 10000).dedup.length)) ∧
    (py w (py w d .removeMaterials).2 .getMaterialNames).1 = .value (.names []) ∧
    ((py w d (.addMaterial m b)).1 = .value .nothing → ∀ l, (py w d .getMaterialNames).1 = .value (.names l) →
      (py w (py w d (.addMaterial m b)).2 .getMaterialNames).1 =
        .value (.names (if .str m.name ∈ l then l else l ++ [.str m.name]))) := by
  obtain ⟨-, -, a1, -, a2, a3, -, -, -, -⟩ := C190_changes w d n es b [] 0 0 0 0 0 m
  refine ⟨rfl, fun h => ?_, fun h => ?_, fun h => ?_, rfl, fun h l hl => ?_⟩
  · obtain ⟨e, _, h2⟩ := getElement_made (a2.made h)
    have h3 : (cxx w (py w d (.setCacheEnabled n b)).2 (.isCacheEnabled n.get)).1 = .ok (.int (if b then 1 else 0)) := by
      rw [a2.2]
      simp only [cxx, asks, Library.isCacheEnabled, Library.step]
      rw [h2]
      cases b <;> rfl
    simp only [py, stdString_toBytes, pre, through] at h3 ⊢
    rw [hn, h3]
    rfl
  · obtain ⟨e, _, h2⟩ := getElement_made (a3.made h)
    have h3 : (cxx w (py w d (.clearCache n)).2 (.getCacheSize n.get)).1 = .ok (.int 0) := by
      rw [a3.2]
      simp only [cxx, asks, Library.getCacheSize, Library.step]
      rw [h2]
      rfl
    simp only [py, stdString_toBytes, pre, through] at h3 ⊢
    rw [hn, h3]
    rfl
  · have hm := a1.made h
    obtain ⟨e, h1, h2⟩ := getElement_made hm
    have h3 : (cxx w (py w d (.fillCache n es)).2 (.getCacheSize n.get)).1 = .ok (.int (es.take 10000).dedup.length) := by
      rw [a1.2]
      simp only [cxx, asks, Library.getCacheSize, Library.step]
      rw [h2]
      obtain ⟨e', h1', hs⟩ := Library.onElement_ok hm
      rw [h1] at h1'
      cases h1'
      have := ((Element.C153_fill e.data es).2.2 hs).1
      simp only [Outcome.ok_bind, Outcome.bind]
      rw [show (e.data.step (.fillCache es)).2.getCacheSize = _ from this]
      rfl
    simp only [py, stdString_toBytes, pre, through] at h3 ⊢
    rw [hn, h3]
    rfl
  · have hnames : ∀ d' : Init.Database K, (py w d' .getMaterialNames).1 =
        .value (.names (d'.lib.materials.map (fun m => Text.str m.name))) := by
      intro d'
      simp only [py, through, cxx, asks, guarded, value_bind, Answer.map, afterList, Library.getMaterialNames, List.map_map]
      rfl
    rw [hnames] at hl ⊢
    simp only [Result.value.injEq, Answer.names.injEq] at hl
    subst hl
    have a4 := (C190_changes w d n es b [] 0 0 0 0 0 m).2.2.2.2.2.2.2.2.1
    have hm := a4.made h
    rw [a4.2]
    simp only [Library.step] at hm ⊢
    unfold Library.addMaterialObject at hm ⊢
    have hmem : Text.str m.name ∈ d.lib.materials.map (fun m => Text.str m.name) ↔ d.lib.materialIndex m.name < d.lib.materials.length := by
      unfold Library.materialIndex
      rw [List.findIdx_lt_length]
      constructor
      · intro h
        obtain ⟨q, hq, he⟩ := List.mem_map.1 h
        cases q; cases he
        exact ⟨_, hq, by simp⟩
      · rintro ⟨q, hq, he⟩
        exact List.mem_map.2 ⟨q, hq, by simpa using he⟩
    by_cases hi : d.lib.materialIndex m.name < d.lib.materials.length
    · rw [if_pos (hmem.2 hi)]
      simp only [hi, if_true] at hm ⊢
      cases b with
      | true => cases hm
      | false =>
        simp only [Bool.false_eq_true, if_false, Result.value.injEq, Answer.names.injEq]
        have hq : (d.lib.materials[d.lib.materialIndex m.name]'hi).name = m.name := by
          have := List.findIdx_getElem (p := fun q : Material K => q.name == m.name) (w := hi)
          exact eq_of_beq this
        rw [List.map_set]
        apply List.ext_getElem
        · simp
        · intro k h1 h2
          rw [List.getElem_set]
          split
          · rename_i hk
            subst hk
            simp [hq]
          · rfl
    · rw [if_neg (fun h => hi (hmem.1 h))]
      simp only [hi, if_false, List.map_append]
      rfl

/-! ### C151: a composition given as a dictionary -/

theorem stdMap_bytes {d : List (Text × K)} (hb : ∀ p ∈ d, ∃ s, p.1 = .bytes s) : stdMap d = .value (dictOf d) := by
  have h : toBytesKeys d = d := by
    unfold toBytesKeys
    conv_rhs => rw [← List.map_id d]
    refine List.map_congr_left (fun p hp => ?_)
    obtain ⟨s, hs⟩ := hb p hp
    obtain ⟨k, x⟩ := p
    cases hs
    rfl
  rw [← stdMap_dictOf, h]

theorem dictOf_scaled (k : K) (d : List (Text × K)) : dictOf (d.map (fun p => (p.1, k * p.2))) = Library.scaled k (dictOf d) := by
  have key : ∀ (d : List (Text × K)) (acc : SMap String K),
      ((d.map (fun p => (p.1, k * p.2))).map (fun p => (p.1.get, p.2))).foldl (fun m e => SMap.insert m e.1 e.2) (Library.scaled k acc) =
      Library.scaled k ((d.map (fun p => (p.1.get, p.2))).foldl (fun m e => SMap.insert m e.1 e.2) acc) := by
    intro d
    induction d with
    | nil => intro acc; rfl
    | cons p d ih =>
      intro acc
      simp only [List.map_cons, List.foldl_cons]
      rw [← Library.scaled_insert, ih]
  exact key d []

theorem mixMus_scaled (pf : String → Outcome (SMap String K)) (L : Library K) (fuel : Nat) (input : SMap String K) (es : List K) (k : K)
    (hk : 0 < k) : L.mixMus pf fuel (Library.scaled k input) es false = L.mixMus pf fuel input es false := by
  have hlist : ∀ (a : SMap String K × K) (es : List K), L.mixList (Library.scaled k a.1, k * a.2) es = L.mixList a es := by
    intro a es
    induction es with
    | nil => rfl
    | cons x es ih =>
      unfold Library.mixList
      simp only [Library.mixSum_scaled L k hk, ih]
  unfold Library.mixMus Library.amounts
  rw [if_neg (by simp), if_neg (by simp)]
  have h := Library.amountsLoop_scaled pf L fuel k hk input [] 0
  rw [mul_zero] at h
  rw [show (Library.scaled k ([] : SMap String K)) = [] from rfl] at h
  rw [h]
  cases Library.amountsLoop pf L fuel input [] 0 with
  | ok r =>
    show ((if k * r.2 ≤ 0 then Outcome.throw .invalidArgument else pure (Library.scaled k r.1, k * r.2)) >>= _) =
      ((if r.2 ≤ 0 then Outcome.throw .invalidArgument else pure r) >>= _)
    by_cases h0 : r.2 ≤ 0
    · rw [if_pos h0, if_pos (mul_nonpos_of_nonneg_of_nonpos hk.le h0)]
    · rw [if_neg h0, if_neg (not_le.2 (mul_pos hk (not_le.1 h0)))]
      simp only [Outcome.pure_eq, Outcome.ok_bind, hlist]
  | throw e => rfl
  | ub u => rfl
  | diverge => rfl

theorem foldl_find {V : Type} : ∀ (l : List (String × V)) (acc : SMap String V), (l.map Prod.fst).Nodup → ∀ k v,
    SMap.find? (l.foldl (fun m e => SMap.insert m e.1 e.2) acc) k = some v ↔
      (k, v) ∈ l ∨ (k ∉ l.map Prod.fst ∧ SMap.find? acc k = some v)
  | [], acc, _, k, v => by simp
  | (n, x) :: l, acc, hn, k, v => by
    simp only [List.map_cons, List.nodup_cons] at hn
    rw [List.foldl_cons, foldl_find l _ hn.2, SMap.find?_insert]
    simp only [List.mem_cons, List.map_cons, Prod.mk.injEq, not_or]
    by_cases hk : k = n
    · subst hk
      have hmem : ∀ v, (k, v) ∉ l := fun v h => hn.1 (List.mem_map.2 ⟨_, h, rfl⟩)
      simp [hn.1, hmem, eq_comm]
    · have hk' : ¬ n = k := fun h => hk h.symm
      simp [hk, hk']

theorem dictOf_perm {d d' : List (Text × K)} (hp : d'.Perm d) (hn : (d.map (fun p => p.1.get)).Nodup) : dictOf d' = dictOf d := by
  refine SMap.ext_find? (SMap.ofList_sorted _) (SMap.ofList_sorted _) (fun k => Option.ext (fun v => ?_))
  have h1 : ((d.map (fun p => (p.1.get, p.2))).map Prod.fst).Nodup := by simpa [Function.comp_def] using hn
  have hp' : (d'.map (fun p => (p.1.get, p.2))).Perm (d.map (fun p => (p.1.get, p.2))) := hp.map _
  have h2 : ((d'.map (fun p => (p.1.get, p.2))).map Prod.fst).Nodup := ((hp'.map Prod.fst).nodup_iff).2 h1
  unfold dictOf SMap.ofList
  rw [foldl_find _ _ h1, foldl_find _ _ h2, hp'.mem_iff, (hp'.map Prod.fst).mem_iff]

/-- **C151** (partial) getMassAttenuationCoefficients of a dictionary whose names are `bytes`, at one energy or several: the coefficients
are those of the mixture in C++; the amounts are relative (multiplied by a positive number they give the same), and the order of the names
does not count. -/
theorem C151_composition_partial (pf : String → Outcome (SMap String K)) (fuel : Nat) (L : Library K) (d : List (Text × K))
    (hb : ∀ p ∈ d, ∃ s, p.1 = .bytes s) (energy : Arg K) :
    getDictCoefficients pf L fuel d energy = guarded (L.mixMus pf fuel (dictOf d) (beamEnergies energy) false) ∧
    (∀ k : K, 0 < k →
      getDictCoefficients pf L fuel (d.map (fun p => (p.1, k * p.2))) energy = getDictCoefficients pf L fuel d energy) ∧
    (∀ d' : List (Text × K), d'.Perm d → (d.map (fun p => p.1.get)).Nodup →
      getDictCoefficients pf L fuel d' energy = getDictCoefficients pf L fuel d energy) := by
  have hone : ∀ d : List (Text × K), (∀ p ∈ d, ∃ s, p.1 = .bytes s) → getDictCoefficients pf L fuel d energy =
      guarded (L.mixMus pf fuel (dictOf d) (beamEnergies energy) false) := by
    intro d hb
    unfold getDictCoefficients
    rw [stdMap_bytes hb]
    rfl
  refine ⟨hone d hb, fun k hk => ?_, fun d' hp hn => ?_⟩
  · rw [hone d hb, hone _ (by
      intro p hp
      obtain ⟨q, hq, rfl⟩ := List.mem_map.1 hp
      exact hb q hq), dictOf_scaled, mixMus_scaled pf L fuel _ _ k hk]
  · rw [hone d hb, hone d' (fun p h => hb p (hp.mem_iff.1 h)), dictOf_perm hp hn]

section example_

attribute [local instance] Element.exampleTrans Library.exampleTrig

/-- One element with all its subshells, lines and tables; no material. -/
def cacheLibrary : Library ℚ :=
  { dict := [("Fe", 0)], elements := [{ name := "Fe", mass := 56, data := Element.cacheExample }], materials := [], escapeOn := false,
    escape := [], escapeKey := { composition := [], energyThreshold := 0, intensityThreshold := 0, nThreshold := 0, alphaIn := 0, thickness := 0 } }

def cacheWorld : World ℚ := { pf := fun n => .ok [(n, 1)], fuel := 5, srt := fun l => l.mergeSort (fun a b => decide (a.2 ≤ b.2)),
                              strtod := fun _ => 0, fs := fun _ => none }

def cacheBase : Init.Database ℚ :=
  { lib := cacheLibrary, periodic := [], epdl := { initialized := false, binding := [], labelIndex := [], values := [], muEnergy := [] }, files := Init.noFiles }

/-- C190_caches applies to it. -/
example : Element.ExpNonneg ℚ ∧ Library.Cacheable cacheBase.lib ∧ Library.Clear cacheBase.lib := by
  refine ⟨Element.exampleExp, ?_, ⟨rfl, ?_, ?_, ?_⟩⟩ <;>
    (intro e he; cases List.mem_singleton.1 he)
  · exact Element.cacheExample_cacheable
  all_goals decide +kernel

/-- A history: the caches are filled under both spellings of the name, a name that is no element is refused, and what is asked in between. -/
example : (pyRun cacheWorld cacheBase
      [.setCacheEnabled (.str "Fe") true, .fillCache (.bytes "Fe") [8, 9, 8], .getCacheSize (.str "Fe"), .isCacheEnabled (.bytes "Fe"),
        .fillCache (.str "Pb") [8], .setElementCascadeCacheEnabled (.str "Fe") true, .emptyElementCascadeCache (.str "Fe"),
        .setEscapeCacheEnabled true, .isEscapeCacheEnabled, .clearCache (.str "Fe"), .getCacheSize (.str "Fe")]).1 =
      [.value .nothing, .value .nothing, .value (.int 2), .value (.int 1), .raises .valueError, .value .nothing, .value .nothing,
        .value .nothing, .value (.int 1), .value .nothing, .value (.int 0)] := by
  decide +kernel

/-- C151_composition_partial applies to a dictionary of `bytes`, which is answered. -/
example : (∀ p ∈ [(Text.bytes "Fe", (3 : ℚ))], ∃ s, p.1 = .bytes s) ∧
    (match getDictCoefficients cacheWorld.pf cacheLibrary 5 [(.bytes "Fe", (3 : ℚ))] (.many [8, 9]) with
      | .value l => decide (l.length = 2 ∧ ∀ m ∈ l, 0 < m.total)
      | _ => false) = true := by
  refine ⟨fun p hp => ⟨"Fe", by rw [List.mem_singleton.1 hp]⟩, ?_⟩
  decide +kernel

end example_

end Python
end Fisx
