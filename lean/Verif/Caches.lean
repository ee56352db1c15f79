import Verif.ElementCache
import Verif.LibraryEscape

/-!
# The caches of the library never change results (property C128)

Any history of calls on the caches (cascade, coefficients and factors, escape peaks) leaves all answers as they were
before.
-/

set_option linter.unusedSectionVars false

namespace Fisx
namespace Element

variable {K : Type} [Field K] [LinearOrder K] [IsStrictOrderedRing K]

/-- The element without its caches. -/
def bare (e : Element K) : Element K :=
  { e with cacheOn := false, muCache := [], excCache := [], cascadeOn := false, cascadeCache := [] }

variable [Trans K]

/-- The calls on the caches of an element. -/
def Op.OnCaches : Op K → Prop
  | .setCascadeCacheEnabled _ => True
  | .fillCascadeCache => True
  | .emptyCascadeCache => True
  | .setCacheEnabled _ => True
  | .clearCache => True
  | .fillCache _ => True
  | .updateCache _ => True
  | _ => False

/-- Data for which the caches are meant: all subshells K to M5, no negative transfers, yields, rates and partial
coefficients, line names of one subshell only, and the lines of each subshell can be computed. -/
structure Cacheable (e : Element K) : Prop where
  keys : e.shells.keys = Element.keys
  transfers : TransfersNonneg e.shells
  clean : CleanShells e.shells
  partials : PartialsNonneg e
  lines : ∀ s ∈ Element.keys, ∃ l, getLines (bare e) [(s, 1)] true true = .ok l

/-- The invariant: the data did not change, and what is cached is what would be computed. -/
structure Valid (e0 e : Element K) : Prop where
  same : bare e = bare e0
  fresh : Fresh e
  mu : ∀ x m, e.muCache.find? x = some m → getMu (Element.bare e0) x = .ok m
  exc : ∀ x f, e.excCache.find? x = some f → getFactors (Element.bare e0) x 1 = .ok f

theorem bare_emission (e : Element K) : SameEmission e (bare e) := ⟨rfl, fun _ _ => rfl⟩

theorem Valid.emission {e0 e : Element K} (h : Valid e0 e) : SameEmission e (Element.bare e0) := by
  rw [← h.same]; exact bare_emission e

theorem getMu_bare (e : Element K) (x : K) : getMu (plain e) x = getMu (bare e) x := by
  rw [getMu_plain]
  unfold getMu
  simp only [bare, Bool.false_eq_true, if_false]
  congr 1

theorem Valid.getMu {e0 e : Element K} (h : Valid e0 e) (x : K) : getMu e x = getMu (Element.bare e0) x := by
  rw [getMu_eq ?_, getMu_bare, h.same]
  intro y m hy
  rw [getMu_bare, h.same]
  exact h.mu y m hy

theorem Valid.vacancies {e0 e : Element K} (h : Valid e0 e) (x : K) :
    getInitialVacancies e x = getInitialVacancies (Element.bare e0) x := by
  unfold getInitialVacancies
  rw [h.getMu]

theorem vacancies_good (hexp : ExpNonneg K) {e : Element K} (h : Cacheable e) {x : K} {d : SMap Str K}
    (hd : getInitialVacancies (bare e) x = .ok d) :
    SMap.Sorted d ∧ (∀ p ∈ d, 0 ≤ p.2) ∧ ∀ p ∈ d, 0 < p.2 → p.1 = allOther ∨ e.shells.mem p.1 = true := by
  unfold getInitialVacancies at hd
  obtain ⟨m, hm, hd⟩ := Outcome.bind_eq_ok.1 hd
  have hv : VacInv (bare e) := ⟨h.partials, fun y m hy => by cases hy⟩
  obtain ⟨hnn, hsum⟩ := getMu_ok hexp hv hm
  simp only [Outcome.pure_eq, Outcome.ok.injEq] at hd
  have hp0 : 0 ≤ m.photoelectric := by
    rw [hsum]
    apply List.sum_nonneg
    intro v hv
    obtain ⟨s, _, rfl⟩ := List.mem_map.1 hv
    exact hnn s
  have hsort : SMap.Sorted d := by rw [← hd]; exact SMap.ofList_sorted _
  rw [ofList_photo (fun s => if m.photoelectric > 0 then at0 m.partials s / m.photoelectric else 0)] at hd
  refine ⟨hsort, fun p hp => ?_, fun p hp _ => ?_⟩
  · rw [← hd] at hp
    obtain ⟨s, _, rfl⟩ := List.mem_map.1 hp
    dsimp only
    split
    · exact div_nonneg (hnn s) hp0
    · exact le_refl _
  · rw [← hd] at hp
    obtain ⟨s, hs, rfl⟩ := List.mem_map.1 hp
    have : s ∈ Element.keys ∨ s = allOther := by
      unfold photoShells at hs
      simpa using hs
    rcases this with h1 | h1
    · right
      rw [← h.keys] at h1
      cases hf : e.shells.find? s with
      | some v => simp [SMap.mem, hf]
      | none =>
        obtain ⟨q, hq, hqs⟩ := List.mem_map.1 h1
        exact absurd hqs ((SMap.find?_eq_none_iff _ _).1 hf q hq)
    · exact Or.inl h1

theorem keys_length {e : Element K} (h : e.shells.keys = Element.keys) : e.shells.keys = Element.keys.take e.shells.length := by
  have : e.shells.length = Element.keys.length := by rw [← h]; simp [SMap.keys]
  rw [this, List.take_length, h]

/-- Emission with valid caches. -/
theorem Valid.getLines {e0 e : Element K} (h : Valid e0 e) (hc : Cacheable e0) {d : SMap Str K}
    (hd : SMap.Sorted d ∧ (∀ p ∈ d, 0 ≤ p.2) ∧ ∀ p ∈ d, 0 < p.2 → p.1 = allOther ∨ e0.shells.mem p.1 = true)
    (c y : Bool) : getLines e d c y = getLines (Element.bare e0) d c y := by
  have hs : e.shells = e0.shells := h.emission.shells
  rw [C18_fresh_transparent h.fresh (by rw [hs]; exact hc.transfers) (by rw [hs]; exact hc.clean)
    (keys_length (by rw [hs]; exact hc.keys)) d hd.1 hd.2.1 (by rw [hs]; exact hd.2.2)]
  exact getLines_congr_off (e := { e with cascadeOn := false }) ⟨h.emission.1, h.emission.2⟩ rfl rfl d c y

theorem Valid.computeFactors (hexp : ExpNonneg K) {e0 e : Element K} (h : Valid e0 e) (hc : Cacheable e0) (x w : K) :
    computeFactors e x w = computeFactors (Element.bare e0) x w := by
  unfold Element.computeFactors
  rw [h.vacancies]
  cases hv : getInitialVacancies (Element.bare e0) x with
  | ok d =>
    simp only [Outcome.ok_bind]
    rw [h.getLines hc (vacancies_good hexp hc hv), h.getMu]
  | throw _ => rfl
  | ub _ => rfl
  | diverge => rfl

theorem Valid.getFactors (hexp : ExpNonneg K) {e0 e : Element K} (h : Valid e0 e) (hc : Cacheable e0) (x w : K) :
    getFactors e x w = getFactors (Element.bare e0) x w := by
  have hR : ∀ w, Element.getFactors (Element.bare e0) x w = Element.computeFactors (Element.bare e0) x w := fun _ => rfl
  rw [hR]
  unfold Element.getFactors
  split
  · split
    · rename_i c hcc
      have := h.exc x c hcc
      rw [hR] at this
      exact (computeFactors_scale _ x w c this).symm
    · exact h.computeFactors hexp hc x w
  · exact h.computeFactors hexp hc x w

/-! ### The calls on the caches -/

theorem fillCascade_ok {e0 e : Element K} (h : SameEmission e (bare e0)) (hc : Cacheable e0) :
    e.fillCascadeCache.1 = .ok () := by
  have key : ∀ (subs : List Str) (m : SMap Str (SMap Str (Line K))), (∀ s ∈ subs, s ∈ Element.keys) →
      (fillCascadeLoop e subs m).1 = .ok () := by
    intro subs
    induction subs with
    | nil => intro m _; rfl
    | cons s subs ih =>
      intro m hs
      unfold fillCascadeLoop
      rw [getLines_congr_off (e := { e with cascadeOn := false }) (e' := bare e0) ⟨h.1, h.2⟩ rfl rfl]
      obtain ⟨l, hl⟩ := hc.lines s (hs s (by simp))
      rw [hl]
      exact ih _ (fun s' h' => hs s' (by simp [h']))
  have hk : e.shells.keys = Element.keys := by rw [h.shells]; exact hc.keys
  have := key e.shells.keys [] (fun s hs => by rw [hk] at hs; exact hs)
  unfold fillCascadeCache
  simp only [this]

theorem Valid.cascade {e0 e e' : Element K} (h : Valid e0 e) (hb : Element.bare e' = Element.bare e)
    (h1 : e'.muCache = e.muCache) (h2 : e'.excCache = e.excCache) (hf : Fresh e') : Valid e0 e' :=
  ⟨hb.trans h.same, hf, by rw [h1]; exact h.mu, by rw [h2]; exact h.exc⟩

theorem fill_keeps (e : Element K) : bare e.fillCascadeCache.2 = bare e ∧
    e.fillCascadeCache.2.muCache = e.muCache ∧ e.fillCascadeCache.2.excCache = e.excCache := by
  unfold fillCascadeCache
  dsimp only
  split <;> exact ⟨rfl, rfl, rfl⟩

theorem Valid.addMu {e0 e : Element K} (h : Valid e0 e) (x : K) (m : Mu K) (hm : Element.getMu e x = .ok m) :
    Valid e0 { e with muCache := e.muCache.insert x m } := by
  refine ⟨h.same, fresh_congr h.fresh ⟨rfl, fun _ _ => rfl⟩ rfl, fun y n hy => ?_, h.exc⟩
  simp only at hy
  rw [SMap.find?_insert] at hy
  split_ifs at hy with hxy
  · subst hxy
    cases hy
    rw [← h.getMu]; exact hm
  · exact h.mu y n hy

theorem Valid.addExc (hexp : ExpNonneg K) {e0 e : Element K} (h : Valid e0 e) (hc : Cacheable e0) (x : K)
    (f : SMap Str (Factor K)) (hf : Element.getFactors e x 1 = .ok f) :
    Valid e0 { e with excCache := e.excCache.insert x f } := by
  refine ⟨h.same, fresh_congr h.fresh ⟨rfl, fun _ _ => rfl⟩ rfl, h.mu, fun y n hy => ?_⟩
  simp only at hy
  rw [SMap.find?_insert] at hy
  split_ifs at hy with hxy
  · subst hxy
    cases hy
    rw [← h.getFactors hexp hc]; exact hf
  · exact h.exc y n hy

theorem Valid.emptied {e0 e e' : Element K} (h : Valid e0 e) (hb : Element.bare e' = Element.bare e)
    (h1 : e'.muCache = []) (h2 : e'.excCache = []) (hf : Fresh e') : Valid e0 e' :=
  ⟨hb.trans h.same, hf, (by rw [h1]; intro _ _ h; cases h), (by rw [h2]; intro _ _ h; cases h)⟩

theorem Valid.step (hexp : ExpNonneg K) {e0 e : Element K} (h : Valid e0 e) (hc : Cacheable e0) (op : Op K)
    (hop : op.OnCaches) : Valid e0 (e.step op).2 := by
  have hfill := fillCascade_ok h.emission hc
  have hcalm : op.Calm e := by
    cases op with
    | setCascadeCacheEnabled f =>
      show (e.setCascadeCacheEnabled f).1 = .ok ()
      unfold setCascadeCacheEnabled
      split
      · rfl
      · split
        · simp only [hfill]
        · rfl
    | fillCascadeCache => exact hfill
    | emptyCascadeCache => trivial
    | setCacheEnabled f => trivial
    | clearCache => trivial
    | fillCache l => trivial
    | updateCache l => trivial
    | _ => exact absurd hop (by simp [Op.OnCaches])
  have hfresh := fresh_step h.fresh op hcalm
  cases op with
  | setCascadeCacheEnabled f =>
    obtain ⟨k1, k2, k3⟩ := fill_keeps e
    refine h.cascade ?_ ?_ ?_ hfresh
    all_goals
      simp only [Element.step]
      unfold setCascadeCacheEnabled
      split
      · rfl
      · split
        · simp only [hfill]
          first | exact k1 | exact k2 | exact k3
        · rfl
  | fillCascadeCache =>
    obtain ⟨k1, k2, k3⟩ := fill_keeps e
    exact h.cascade k1 k2 k3 hfresh
  | emptyCascadeCache => exact h.cascade rfl rfl rfl hfresh
  | setCacheEnabled f => exact h.cascade rfl rfl rfl hfresh
  | clearCache => exact h.emptied rfl rfl rfl hfresh
  | fillCache l =>
    have h0 : Valid e0 { e.clearCache with cacheOn := false } :=
      h.emptied rfl rfl rfl (fresh_congr h.fresh ⟨rfl, fun _ _ => rfl⟩ rfl)
    have := fillLoop_induct (Valid e0) (fun e x m hp hm => hp.addMu x m hm)
      (fun e x f hp _ hf => hp.addExc hexp hc x f hf) _ (l.take cacheMaximumSize) h0
    exact this.cascade rfl rfl rfl hfresh
  | updateCache l =>
    have h0 : Valid e0 { e with cacheOn := false } :=
      h.cascade rfl rfl rfl (fresh_congr h.fresh ⟨rfl, fun _ _ => rfl⟩ rfl)
    have := updateLoop_induct (Valid e0) (fun e x m hp _ hm => hp.addMu x m hm)
      (fun e x f hp _ hf => hp.addExc hexp hc x f hf) _ l h0
    exact this.cascade rfl rfl rfl hfresh
  | _ => exact absurd hop (by simp [Op.OnCaches])

theorem Valid.start {e : Element K} (h1 : e.cascadeCache = []) (h2 : e.muCache = []) (h3 : e.excCache = []) : Valid e e :=
  ⟨rfl, Or.inl h1, (by rw [h2]; intro _ _ h; cases h), (by rw [h3]; intro _ _ h; cases h)⟩

theorem Valid.run (hexp : ExpNonneg K) {e0 : Element K} (hc : Cacheable e0) (ops : List (Op K)) :
    ∀ {e : Element K}, Valid e0 e → (∀ op ∈ ops, op.OnCaches) → Valid e0 (e.run ops) := by
  induction ops with
  | nil => intro e h _; exact h
  | cons op ops ih =>
    intro e h hops
    exact ih (h.step hexp hc op (hops op (by simp))) (fun o ho => hops o (by simp [ho]))

/-- **C128** (an element) Whatever calls are made on the caches, coefficients, initial vacancies, excitation factors and
lines of nonnegative vacancy distributions are those given before the calls. -/
theorem C128_element (hexp : ExpNonneg K) {e : Element K} (hc : Cacheable e) (h1 : e.cascadeCache = []) (h2 : e.muCache = [])
    (h3 : e.excCache = []) (ops : List (Op K)) (hops : ∀ op ∈ ops, op.OnCaches) :
    (∀ x, (run e ops).getMu x = e.getMu x) ∧
    (∀ x, (run e ops).getInitialVacancies x = e.getInitialVacancies x) ∧
    (∀ x w, (run e ops).getFactors x w = e.getFactors x w) ∧
    (∀ d, SMap.Sorted d → (∀ p ∈ d, 0 ≤ p.2) → (∀ p ∈ d, 0 < p.2 → p.1 = allOther ∨ e.shells.mem p.1 = true) →
      ∀ c y, (run e ops).getLines d c y = e.getLines d c y) := by
  have h0 : Valid e e := Valid.start h1 h2 h3
  have h := Valid.run hexp hc ops h0 hops
  refine ⟨fun x => by rw [h.getMu, h0.getMu], fun x => by rw [h.vacancies, h0.vacancies],
    fun x w => by rw [h.getFactors hexp hc, h0.getFactors hexp hc], fun d hd1 hd2 hd3 c y => ?_⟩
  rw [h.getLines hc ⟨hd1, hd2, hd3⟩, h0.getLines hc ⟨hd1, hd2, hd3⟩]

end Element

/-! ## The library -/

namespace Library

variable {K : Type} [Field K] [LinearOrder K] [IsStrictOrderedRing K] [Trans K]

/-- Two elements that answer alike. -/
structure AlikeElement (a b : LibElement K) : Prop where
  name : a.name = b.name
  mass : a.mass = b.mass
  shells : a.data.shells = b.data.shells
  binding : a.data.binding = b.data.binding
  mu : ∀ x, a.data.getMu x = b.data.getMu x
  factors : ∀ x w, a.data.getFactors x w = b.data.getFactors x w

/-- Two libraries with the same names and materials and elements that answer alike. -/
structure Alike (L M : Library K) : Prop where
  dict : L.dict = M.dict
  materials : L.materials = M.materials
  elements : List.Forall₂ AlikeElement L.elements M.elements

theorem forall₂_getElem {α β : Type} {R : α → β → Prop} : ∀ {l : List α} {m : List β}, List.Forall₂ R l m → ∀ i : Nat,
    (l[i]? = none ∧ m[i]? = none) ∨ ∃ a b, l[i]? = some a ∧ m[i]? = some b ∧ R a b
  | _, _, .nil, i => Or.inl ⟨by simp, by simp⟩
  | _, _, .cons h _, 0 => Or.inr ⟨_, _, rfl, rfl, h⟩
  | _, _, .cons _ t, i + 1 => by simpa using forall₂_getElem t i

theorem vget_bind {α β γ : Type} {R : α → β → Prop} {l : List α} {m : List β} (h : List.Forall₂ R l m) (i : Nat)
    {f : α → Outcome γ} {g : β → Outcome γ} (hfg : ∀ a b, R a b → f a = g b) : (vget l i >>= f) = (vget m i >>= g) := by
  unfold vget
  rcases forall₂_getElem h i with ⟨h1, h2⟩ | ⟨a, b, h1, h2, h3⟩
  · rw [h1, h2]; rfl
  · rw [h1, h2]; exact hfg a b h3

variable {L M : Library K}

theorem Alike.getElement (h : Alike L M) (n : String) {γ : Type} {f g : LibElement K → Outcome γ}
    (hfg : ∀ a b, AlikeElement a b → f a = g b) : (L.getElement n >>= f) = (M.getElement n >>= g) := by
  unfold Library.getElement isElementNameDefined
  rw [h.dict]
  generalize (if n.length = 0 then false else M.dict.mem n) = b
  cases b with
  | false => rfl
  | true =>
    rw [if_pos rfl, if_pos rfl]
    cases M.dict.find? n with
    | none => rfl
    | some i => exact vget_bind h.elements i hfg

theorem Alike.masses (h : Alike L M) : ∀ f, L.masses f = M.masses f
  | [] => rfl
  | (n, x) :: f => by
    unfold Library.masses
    rw [h.dict, h.masses f]
    cases M.dict.find? n with
    | none => rfl
    | some i =>
      dsimp only
      rcases forall₂_getElem h.elements i with ⟨h1, h2⟩ | ⟨a, b, h1, h2, h3⟩
      · rw [h1, h2]
      · rw [h1, h2]
        dsimp only
        rw [h3.mass]

variable (pf : String → Outcome (SMap String K))

theorem Alike.formula (h : Alike L M) (n : String) : L.formula pf n = M.formula pf n := by
  unfold Library.formula
  simp only [h.masses]

theorem Alike.comp (h : Alike L M) (d : Nat) : Library.comp pf L d = Library.comp pf M d := by
  induction d with
  | zero => rfl
  | succ d ih =>
    funext n
    unfold Library.comp
    rw [h.formula, ih]
    unfold Library.lookup
    rw [h.materials]

theorem Alike.compWith (h : Alike L M) (extra : List (Material K)) (d : Nat) :
    Library.compWith pf L extra d = Library.compWith pf M extra d := by
  induction d with
  | zero => rfl
  | succ d ih =>
    funext n
    unfold Library.compWith Library.ownComposition
    rw [h.formula, ih, h.comp]

theorem Alike.compMap (h : Alike L M) (extra : List (Material K)) (d : Nat) (input : SMap String K) :
    L.compMap pf extra d input = M.compMap pf extra d input := by
  unfold Library.compMap
  rw [h.compWith]

theorem Alike.amountsLoop (h : Alike L M) (d : Nat) : ∀ (items : List (String × K)) (acc : SMap String K) (t : K),
    Library.amountsLoop pf L d items acc t = Library.amountsLoop pf M d items acc t
  | [], _, _ => rfl
  | (n, w) :: items, acc, t => by
    unfold Library.amountsLoop
    simp only [h.comp, fun acc t => h.amountsLoop d items acc t]

theorem Alike.amounts (h : Alike L M) (d : Nat) (input : SMap String K) (b : Bool) :
    L.amounts pf d input b = M.amounts pf d input b := by
  unfold Library.amounts
  simp only [h.amountsLoop]

theorem Alike.mixSum (h : Alike L M) (t x : K) : ∀ (items : List (String × K)) (acc : Mix K),
    L.mixSum t x items acc = M.mixSum t x items acc
  | [], _ => rfl
  | (n, w) :: items, acc => by
    unfold Library.mixSum
    rw [h.dict]
    cases M.dict.find? n with
    | none => rfl
    | some i =>
      refine vget_bind h.elements i (fun a b hab => ?_)
      rw [hab.mu]
      simp only [fun acc => h.mixSum t x items acc]

theorem Alike.mixMu (h : Alike L M) (d : Nat) (input : SMap String K) (x : K) (b : Bool) :
    L.mixMu pf d input x b = M.mixMu pf d input x b := by
  unfold Library.mixMu
  simp only [h.amounts, h.mixSum]

theorem Alike.mixMus (h : Alike L M) (d : Nat) (input : SMap String K) (xs : List K) (b : Bool) :
    L.mixMus pf d input xs b = M.mixMus pf d input xs b := by
  have key : ∀ (a : SMap String K × K) (xs : List K), L.mixList a xs = M.mixList a xs := by
    intro a xs
    induction xs with
    | nil => rfl
    | cons x xs ih => unfold mixList; simp only [h.mixSum, ih]
  unfold Library.mixMus
  simp only [h.amounts, key]

theorem Alike.nameMu (h : Alike L M) (d : Nat) (n : String) (x : K) : L.nameMu pf d n x = M.nameMu pf d n x := by
  unfold Library.nameMu
  rw [h.dict, h.comp]
  split_ifs
  · exact h.getElement n (fun a b hab => by rw [hab.mu])
  · simp only [h.mixMu]

theorem Alike.familiesOf {a b : LibElement K} (h : AlikeElement a b) : ∀ l : List Str, Library.familiesOf a l = Library.familiesOf b l
  | [] => rfl
  | s :: l => by
    unfold Library.familiesOf
    rw [h.shells, h.binding, h.name, Alike.familiesOf h l]

theorem Alike.families (h : Alike L M) (srt : List (String × K) → List (String × K)) (names : List String) (x : K) :
    L.peakFamilies srt names x = M.peakFamilies srt names x := by
  have key : ∀ names, L.familiesLoop names x = M.familiesLoop names x := by
    intro names
    induction names with
    | nil => rfl
    | cons n names ih =>
      unfold familiesLoop
      refine h.getElement n (fun a b hab => ?_)
      unfold Element.getExcitedShells
      rw [hab.binding, Alike.familiesOf hab, ih]
  unfold peakFamilies
  rw [key]

theorem Alike.familiesOfName (h : Alike L M) (srt : List (String × K) → List (String × K)) (d : Nat) (n : String) (x : K) :
    L.peakFamiliesOf pf srt d n x = M.peakFamiliesOf pf srt d n x := by
  unfold peakFamiliesOf
  simp only [h.comp, h.families]

variable [Trig K]

theorem Alike.escapeLines (h : Alike L M) (d : Nat) (key : EscapeKey K) (x mu : K) (n : String) : ∀ (l : List (Str × Factor K))
    (acc : SMap String (Line K)), Library.escapeLines pf L d key x mu n l acc = Library.escapeLines pf M d key x mu n l acc
  | [], _ => rfl
  | (t, f) :: l, acc => by
    unfold Library.escapeLines
    simp only [h.mixMu, fun acc => h.escapeLines d key x mu n l acc]

theorem Alike.computeEscape (h : Alike L M) (d : Nat) (key : EscapeKey K) (x : K) :
    L.computeEscape pf d key x = M.computeEscape pf d key x := by
  have hel : ∀ mu items acc, escapeElements pf L d key x mu items acc = escapeElements pf M d key x mu items acc := by
    intro mu items
    induction items with
    | nil => intro acc; rfl
    | cons l lines ih =>
      intro acc
      unfold escapeElements
      refine h.getElement _ (fun a b hab => ?_)
      rw [hab.factors]
      simp only [h.escapeLines, ih]
  unfold Library.computeEscape
  simp only [h.mixMu, hel]

/-- The calls on the caches of a library. -/
def Op.OnCaches : Op K → Prop
  | .onElement _ op => op.OnCaches
  | .setEscapeCacheEnabled _ => True
  | .clearEscapeCache => True
  | .updateEscapeCache _ _ => True
  | _ => False

/-- The invariant: the data did not change, and what is cached is what would be computed. -/
structure Valid (fuel : Nat) (L0 L : Library K) : Prop where
  dict : L.dict = L0.dict
  materials : L.materials = L0.materials
  elements : List.Forall₂ (fun a b => a.name = b.name ∧ a.mass = b.mass ∧ Element.Valid b.data a.data) L.elements L0.elements
  escape : EscapeTrue pf fuel L

/-- All elements have data the caches are meant for. -/
def Cacheable (L : Library K) : Prop := ∀ e ∈ L.elements, Element.Cacheable e.data

variable {pf} {fuel : Nat} {L0 : Library K}

/-- Nothing is cached. -/
structure Clear (L : Library K) : Prop where
  escape : L.escape = []
  cascade : ∀ e ∈ L.elements, e.data.cascadeCache = []
  mu : ∀ e ∈ L.elements, e.data.muCache = []
  exc : ∀ e ∈ L.elements, e.data.excCache = []

theorem Valid.start (h : Clear L) : Valid pf fuel L L := by
  refine ⟨rfl, rfl, ?_, escapeTrue_empty pf fuel L h.escape⟩
  rw [List.forall₂_same]
  exact fun e he => ⟨rfl, rfl, Element.Valid.start (h.cascade e he) (h.mu e he) (h.exc e he)⟩

theorem forall₂_imp_mem {α β : Type} {R S : α → β → Prop} : ∀ {l : List α} {m : List β}, List.Forall₂ R l m →
    (∀ a b, b ∈ m → R a b → S a b) → List.Forall₂ S l m
  | _, _, .nil, _ => .nil
  | _, _, .cons h t, hi => .cons (hi _ _ (by simp) h) (forall₂_imp_mem t (fun a b hb => hi a b (by simp [hb])))

theorem Valid.alike (hexp : Element.ExpNonneg K) (h : Valid pf fuel L0 L) (hc : Cacheable L0) (h0 : Clear L0) : Alike L L0 := by
  refine ⟨h.dict, h.materials, forall₂_imp_mem h.elements ?_⟩
  rintro a b hb ⟨h1, h2, h3⟩
  have hs := Element.Valid.start (h0.cascade b hb) (h0.mu b hb) (h0.exc b hb)
  have hcb := hc b hb
  have hsame : a.data.bare.binding = b.data.bare.binding := by rw [h3.same]
  exact ⟨h1, h2, h3.emission.shells, hsame, fun x => by rw [h3.getMu, hs.getMu],
    fun x w => by rw [h3.getFactors hexp hcb, hs.getFactors hexp hcb]⟩

theorem forall₂_set {α β : Type} {R : α → β → Prop} : ∀ {l : List α} {m : List β}, List.Forall₂ R l m → ∀ (i : Nat) {a : α} {b : β},
    m[i]? = some b → R a b → List.Forall₂ R (l.set i a) m
  | _, _, .nil, _, _, _, hb, _ => by simp at hb
  | _, _, .cons _ t, 0, _, _, hb, hr => by
    simp only [List.getElem?_cons_zero, Option.some.injEq] at hb
    subst hb
    exact .cons hr t
  | _, _, .cons h t, i + 1, _, _, hb, hr => .cons h (forall₂_set t i (by simpa using hb) hr)

theorem Valid.step (hexp : Element.ExpNonneg K) (h : Valid pf fuel L0 L) (hc : Cacheable L0) (h0 : Clear L0) (op : Op K)
    (hop : op.OnCaches) : Valid pf fuel L0 (L.step pf fuel op).2 := by
  have hesc : ∀ op : Op K, ((∃ f, op = .setEscapeCacheEnabled f) ∨ op = .clearEscapeCache ∨ ∃ k es, op = .updateEscapeCache k es) →
      Valid pf fuel L0 (L.step pf fuel op).2 := by
    intro op ho
    have he := escapeTrue_step pf fuel L h.escape op (Or.inr ho)
    rcases ho with ⟨f, rfl⟩ | rfl | ⟨k, es, rfl⟩
    · exact ⟨h.1, h.2, h.3, he⟩
    · exact ⟨h.1, h.2, h.3, he⟩
    · have hf := updateEscapeLoop_frame pf fuel k es (if L.escapeCompatible k then L else L.clearEscapeCache)
      have h1 : (if L.escapeCompatible k then L else L.clearEscapeCache).dict = L.dict ∧
          (if L.escapeCompatible k then L else L.clearEscapeCache).elements = L.elements ∧
          (if L.escapeCompatible k then L else L.clearEscapeCache).materials = L.materials := by
        split_ifs <;> exact ⟨rfl, rfl, rfl⟩
      refine ⟨?_, ?_, ?_, he⟩
      · exact (hf.1.1.trans h1.1).trans h.1
      · exact (hf.2.trans h1.2.2).trans h.2
      · have : (L.step pf fuel (.updateEscapeCache k es)).2.elements = L.elements := hf.1.2.trans h1.2.1
        rw [this]; exact h.3
  cases op with
  | setEscapeCacheEnabled f => exact hesc _ (Or.inl ⟨f, rfl⟩)
  | clearEscapeCache => exact hesc _ (Or.inr (Or.inl rfl))
  | updateEscapeCache k es => exact hesc _ (Or.inr (Or.inr ⟨k, es, rfl⟩))
  | onElement n op =>
    simp only [Library.step]
    unfold Library.onElement
    split_ifs
    · split
      · rename_i i _
        rcases forall₂_getElem h.elements i with ⟨h1, h2⟩ | ⟨a, b, h1, h2, h3, h4, h5⟩
        · rw [h1]; exact h
        · rw [h1]
          dsimp only
          have hb := List.mem_of_getElem? h2
          have hv : Element.Valid b.data (a.data.step op).2 := h5.step hexp (hc b hb) op hop
          have hel := forall₂_set (a := { a with data := (a.data.step op).2 }) h.elements i h2 ⟨h3, h4, hv⟩
          have hV : Valid pf fuel L0 { L with elements := L.elements.set i { a with data := (a.data.step op).2 }, escape := [] } :=
            ⟨h.1, h.2, hel, escapeTrue_empty pf fuel _ rfl⟩
          have ha := hV.alike hexp hc h0
          have ha0 := h.alike hexp hc h0
          refine ⟨h.1, h.2, hel, fun x r hx => ?_⟩
          have h6 := h.escape x r hx
          rw [ha0.computeEscape] at h6
          have ha' : Alike { L with elements := L.elements.set i { a with data := (a.data.step op).2 } } L0 := ⟨ha.1, ha.2, ha.3⟩
          rw [ha'.computeEscape]
          exact h6
      · exact h
    · exact h
  | _ => exact absurd hop (by simp [Op.OnCaches])

theorem Valid.run (hexp : Element.ExpNonneg K) (hc : Cacheable L0) (h0 : Clear L0) (ops : List (Op K)) :
    ∀ {L : Library K}, Valid pf fuel L0 L → (∀ op ∈ ops, op.OnCaches) → Valid pf fuel L0 (L.run pf fuel ops) := by
  induction ops with
  | nil => intro L h _; exact h
  | cons op ops ih =>
    intro L h hops
    exact ih (h.step hexp hc h0 op (hops op (by simp))) (fun o ho => hops o (by simp [ho]))

theorem Valid.getEscape (hexp : Element.ExpNonneg K) (h : Valid pf fuel L0 L) (hc : Cacheable L0) (h0 : Clear L0)
    (key : EscapeKey K) (x : K) : L.getEscape pf fuel key x = L0.getEscape pf fuel key x := by
  rw [getEscape_true pf fuel L h.escape, getEscape_true pf fuel L0 (escapeTrue_empty pf fuel L0 h0.escape),
    (h.alike hexp hc h0).computeEscape]

/-- **C128** (the library) Whatever calls are made on the caches of the library and its elements, the library answers as it
did before: names, compositions, coefficients of materials and mixtures, excitation factors, peak families and escape
peaks. -/
theorem C128_library (hexp : Element.ExpNonneg K) (pf : String → Outcome (SMap String K)) (fuel : Nat) {L : Library K}
    (hc : Cacheable L) (h0 : Clear L) (ops : List (Op K)) (hops : ∀ op ∈ ops, op.OnCaches)
    (srt : List (String × K) → List (String × K)) (n : String) (names : List String) (input : SMap String K)
    (extra : List (Material K)) (x w : K) (xs : List K) (b : Bool) (key : EscapeKey K) :
    let M := L.run pf fuel ops
    M.getElementNames = L.getElementNames ∧ M.getMaterial n = L.getMaterial n ∧
    M.comp pf fuel n = L.comp pf fuel n ∧ M.compWith pf extra fuel n = L.compWith pf extra fuel n ∧
    M.compMap pf extra fuel input = L.compMap pf extra fuel input ∧
    M.mixMu pf fuel input x b = L.mixMu pf fuel input x b ∧ M.mixMus pf fuel input xs b = L.mixMus pf fuel input xs b ∧
    M.nameMu pf fuel n x = L.nameMu pf fuel n x ∧
    (do let e ← M.getElement n; e.data.getFactors x w) = (do let e ← L.getElement n; e.data.getFactors x w) ∧
    M.peakFamilies srt names x = L.peakFamilies srt names x ∧ M.peakFamiliesOf pf srt fuel n x = L.peakFamiliesOf pf srt fuel n x ∧
    M.getEscape pf fuel key x = L.getEscape pf fuel key x := by
  intro M
  have hV : Valid pf fuel L M := Valid.run hexp hc h0 ops (Valid.start h0) hops
  have ha := hV.alike hexp hc h0
  refine ⟨?_, ?_, by rw [ha.comp], by rw [ha.compWith], ha.compMap pf extra fuel input, ha.mixMu pf fuel input x b,
    ha.mixMus pf fuel input xs b, ha.nameMu pf fuel n x, ha.getElement n (fun a b hab => hab.factors x w),
    ha.families srt names x, ha.familiesOfName pf srt fuel n x, hV.getEscape hexp hc h0 key x⟩
  · unfold getElementNames
    have := ha.elements
    generalize M.elements = l at this
    generalize L.elements = m at this
    induction this with
    | nil => rfl
    | cons h _ ih => simp only [List.map_cons, h.name, ih]
  · unfold getMaterial materialIndex
    rw [ha.materials]

end Library
end Fisx
