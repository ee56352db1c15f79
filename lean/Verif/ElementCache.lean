import Verif.ElementCascade

/-!
# Properties of `fisx::Element`: C18 (staleness of the cascade cache), C19 (calculation cache)
-/

set_option linter.unusedSectionVars false

set_option linter.unusedSimpArgs false

namespace Fisx
namespace Element

variable {K : Type} [Field K] [LinearOrder K] [IsStrictOrderedRing K]

/-! ### What the emission of lines depends on -/

/-- Two elements agree on all that matters for the emission of lines. -/
structure SameEmission (e e' : Element K) : Prop where
  shells : e.shells = e'.shells
  energy : ∀ k t, lineEnergy e k t = lineEnergy e' k t

theorem SameEmission.symm {e e' : Element K} (h : SameEmission e e') : SameEmission e' e :=
  ⟨h.shells.symm, fun k t => (h.energy k t).symm⟩

theorem SameEmission.trans {a b c : Element K} (h : SameEmission a b) (h' : SameEmission b c) : SameEmission a c :=
  ⟨h.shells.trans h'.shells, fun k t => (h.energy k t).trans (h'.energy k t)⟩

theorem SameEmission.refl (e : Element K) : SameEmission e e := ⟨rfl, fun _ _ => rfl⟩

theorem linesOfShell_congr {e e' : Element K} (h : SameEmission e e') (y : Bool) (k : Str) (s : Shell K) (v : K)
    (ratios : List (Str × K)) (acc : SMap Str (Line K)) :
    linesOfShell e y k s v ratios acc = linesOfShell e' y k s v ratios acc := by
  induction ratios generalizing acc with
  | nil => rfl
  | cons p r ih =>
    obtain ⟨t, x⟩ := p
    unfold linesOfShell
    simp only [ih, h.energy]

theorem linesLoop_congr {e e' : Element K} (h : SameEmission e e') (y : Bool) (dist : List (Str × K))
    (acc : SMap Str (Line K)) : linesLoop e y dist acc = linesLoop e' y dist acc := by
  induction dist generalizing acc with
  | nil => rfl
  | cons p r ih =>
    obtain ⟨k, v⟩ := p
    unfold linesLoop
    rw [h.shells]
    split
    · rfl
    · simp only [linesOfShell_congr h, ih]

theorem getCascade_congr {e e' : Element K} (h : SameEmission e e') (d : SMap Str K) :
    e.getCascade d = e'.getCascade d := by
  unfold getCascade initialVector
  rw [h.shells]

theorem getLines_congr {e e' : Element K} (h : SameEmission e e') (hon : e.cascadeOn = e'.cascadeOn)
    (hcache : e.cascadeCache = e'.cascadeCache) (d : SMap Str K) (c y : Bool) :
    e.getLines d c y = e'.getLines d c y := by
  unfold getLines initialVector
  simp only [hon, hcache, getCascade_congr h, linesLoop_congr h, h.shells]

/-- Without cascade cache only the emission data matter. -/
theorem getLines_congr_off {e e' : Element K} (h : SameEmission e e') (hon : e.cascadeOn = false)
    (hon' : e'.cascadeOn = false) (d : SMap Str K) (c y : Bool) :
    e.getLines d c y = e'.getLines d c y := by
  unfold getLines initialVector
  simp only [hon, hon', getCascade_congr h, linesLoop_congr h, h.shells, Bool.false_eq_true, false_and, if_false]

/-! ## C18 -/

/-- The cascade cache is empty or was filled by fillCascadeCache from the current data. -/
def Fresh (e : Element K) : Prop :=
  e.cascadeCache = [] ∨ ∃ e1 e1' : Element K, e1.fillCascadeCache = (.ok (), e1') ∧
    e1'.cascadeCache = e.cascadeCache ∧ SameEmission e1 e

theorem fresh_congr {e e' : Element K} (h : Fresh e) (hs : SameEmission e e')
    (hc : e'.cascadeCache = e.cascadeCache) : Fresh e' := by
  rcases h with h | ⟨e1, e1', h1, h2, h3⟩
  · exact Or.inl (hc.trans h)
  · exact Or.inr ⟨e1, e1', h1, h2.trans hc.symm, h3.trans hs⟩

theorem fill_emission (e : Element K) : SameEmission e.fillCascadeCache.2 e := by
  unfold fillCascadeCache
  simp only
  split <;> exact ⟨rfl, fun _ _ => rfl⟩

/-- **C18** (consequence of freshness) An element with a fresh cache emits the lines of an element without cache. -/
theorem C18_fresh_transparent {e : Element K} (hf : Fresh e) (hT : TransfersNonneg e.shells)
    (hc : CleanShells e.shells) (hkeys : e.shells.keys = keys.take e.shells.length)
    (d : SMap Str K) (hds : SMap.Sorted d) (hd : ∀ p ∈ d, 0 ≤ p.2)
    (hdk : ∀ p ∈ d, 0 < p.2 → p.1 = allOther ∨ e.shells.mem p.1 = true) (c y : Bool) :
    e.getLines d c y = getLines { e with cascadeOn := false } d c y := by
  by_cases huse : c = true ∧ e.cascadeOn = true ∧ y = true ∧ e.cascadeCache.length > 0
  · obtain ⟨rfl, hon, rfl, hlen⟩ := huse
    rcases hf with h | ⟨e1, e1', h1, h2, h3⟩
    · rw [h] at hlen; simp at hlen
    · obtain ⟨out, g1, g2⟩ := C17_cache_transparent (e := e1) (e' := e1') (by rw [h3.shells]; exact hT)
        (by rw [h3.shells]; exact hc) (by rw [h3.shells]; exact hkeys) h1 d hds hd
        (by rw [h3.shells]; exact hdk)
      have he1' : SameEmission e1' e1 := by
        have : e1' = e1.fillCascadeCache.2 := by rw [h1]
        rw [this]
        exact fill_emission e1
      have a : e.getLines d true true = getLines { e1' with cascadeOn := true } d true true := by
        apply getLines_congr (e' := { e1' with cascadeOn := true }) _ hon h2.symm
        exact ⟨(he1'.shells.trans h3.shells).symm, fun k t => ((he1'.energy k t).trans (h3.energy k t)).symm⟩
      have b : getLines { e with cascadeOn := false } d true true
          = getLines { e1 with cascadeOn := false } d true true := by
        apply getLines_congr_off _ rfl rfl
        exact ⟨h3.shells.symm, fun k t => (h3.energy k t).symm⟩
      rw [a, b, g1, g2]
  · have hcd : ∀ (g : Element K), (g.cascadeCache = e.cascadeCache) → (g.cascadeOn = e.cascadeOn ∨ g.cascadeOn = false) →
        c = true → ¬ (g.cascadeOn = true ∧ y = true ∧ g.cascadeCache.length > 0) := by
      rintro g hg (ho | ho) rfl ⟨q1, q2, q3⟩
      · exact huse ⟨rfl, by rw [← ho]; exact q1, q2, by rw [← hg]; exact q3⟩
      · rw [ho] at q1; cases q1
    have hsame : SameEmission e ({ e with cascadeOn := false } : Element K) := ⟨rfl, fun _ _ => rfl⟩
    unfold getLines
    cases c with
    | false => simp only [Bool.false_eq_true, if_false]; rw [linesLoop_congr hsame]; rfl
    | true =>
      simp only [if_true]
      rw [if_neg (hcd e rfl (Or.inl rfl) rfl), if_neg (by simp), getCascade_congr hsame]
      simp only [linesLoop_congr hsame]

section histories

variable [Trans K]

/-- The calls that keep the cascade cache fresh: not one of the setters of binding energies or transitions, and no
failure of the calls changing the constants or filling the cache. -/
def Op.Calm (e : Element K) : Op K → Prop
  | .setBindingEnergies _ => False
  | .setRadiative _ _ _ => False
  | .setRadiativeMap _ _ => False
  | .setNonradiative _ _ _ => False
  | .setNonradiativeMap _ _ => False
  | .setShellConstants s c => (e.setShellConstants s c).1 = .ok ()
  | .setCascadeCacheEnabled f => (e.setCascadeCacheEnabled f).1 = .ok ()
  | .fillCascadeCache => e.fillCascadeCache.1 = .ok ()
  | _ => True

/-- Every call of a history is calm in the state in which it is made. -/
def CalmHistory (e : Element K) : List (Op K) → Prop
  | [] => True
  | op :: r => op.Calm e ∧ CalmHistory (e.step op).2 r

theorem loop_frame (e : Element K) (l : List K) :
    (∃ mc ec, (fillLoop e l).2 = { e with muCache := mc, excCache := ec }) ∧
    (∃ mc ec, (updateLoop e l).2 = { e with muCache := mc, excCache := ec }) := by
  constructor
  · apply fillLoop_induct (fun f => ∃ mc ec, f = { e with muCache := mc, excCache := ec })
    · rintro f x m ⟨mc, ec, rfl⟩ _; exact ⟨_, _, rfl⟩
    · rintro f x m ⟨mc, ec, rfl⟩ _ _; exact ⟨_, _, rfl⟩
    · exact ⟨e.muCache, e.excCache, rfl⟩
  · apply updateLoop_induct (fun f => ∃ mc ec, f = { e with muCache := mc, excCache := ec })
    · rintro f x m ⟨mc, ec, rfl⟩ _ _; exact ⟨_, _, rfl⟩
    · rintro f x m ⟨mc, ec, rfl⟩ _ _; exact ⟨_, _, rfl⟩
    · exact ⟨e.muCache, e.excCache, rfl⟩

theorem lineEnergy_insert_zero (e : Element K) (s : Str) (hs : e.binding.find? s = none) (f : Element K)
    (hf : f.binding = e.binding.insert s 0) (k t : Str) : lineEnergy e k t = lineEnergy f k t := by
  have h1 : innerEnergy e k = innerEnergy f k := by
    unfold innerEnergy
    rw [hf, SMap.find?_insert]
    by_cases h : s = k
    · subst h; simp [hs]
    · simp [h]
  have h2 : ∀ k, outerEnergy e k = outerEnergy f k := by
    intro k
    unfold outerEnergy at0
    rw [hf, SMap.find?_insert]
    by_cases h : s = k
    · subst h; simp [hs]
    · simp [h]
  unfold lineEnergy
  simp only [h1, h2]

theorem setPartial_emission (e : Element K) (s : Str) (en v : List K) :
    SameEmission e (e.setPartial s en v).2 ∧ (e.setPartial s en v).2.cascadeCache = e.cascadeCache ∧
    (e.setPartial s en v).2.cascadeOn = e.cascadeOn := by
  unfold setPartial
  simp only
  split
  · exact ⟨SameEmission.refl _, rfl, rfl⟩
  · split
    · exact ⟨SameEmission.refl _, rfl, rfl⟩
    · split
      · exact ⟨SameEmission.refl _, rfl, rfl⟩
      · split
        · refine ⟨⟨rfl, ?_⟩, rfl, rfl⟩
          intro k t
          by_cases hb : en.length > 1 ∧ e.clearCache.binding.mem s = false
          · apply lineEnergy_insert_zero e s
            · have := hb.2
              simp only [SMap.mem, clearCache] at this
              cases hf : e.binding.find? s with
              | none => rfl
              | some x => rw [hf] at this; cases this
            · simp only [hb]
              rfl
          · simp only [hb, if_false]
            rfl
        · exact ⟨⟨rfl, fun _ _ => rfl⟩, rfl, rfl⟩

theorem fresh_step {e : Element K} (h : Fresh e) (op : Op K) (hop : op.Calm e) : Fresh (e.step op).2 := by
  cases op with
  | setAtomicNumber z =>
    simp only [step, setAtomicNumber]; split
    · exact h
    · exact fresh_congr h ⟨rfl, fun _ _ => rfl⟩ rfl
  | setMass en ph co cm pa =>
    simp only [step, setMassAttenuationCoefficients]
    repeat' split
    all_goals exact fresh_congr h ⟨rfl, fun _ _ => rfl⟩ rfl
  | setPartial s en v =>
    obtain ⟨h1, h2, _⟩ := setPartial_emission e s en v
    exact fresh_congr h h1 h2
  | setShellConstants s c =>
    left
    simp only [Op.Calm] at hop
    simp only [step]
    unfold setShellConstants at hop ⊢
    split at hop
    · cases hop
    · rename_i s' hs'
      simp only at hop ⊢
      split at hop
      · rename_i hr
        simp only [hr]
        rfl
      · rename_i o ho
        simp only at hop
        exact absurd hop ho
  | setCascadeCacheEnabled f =>
    simp only [Op.Calm] at hop
    simp only [step]
    unfold setCascadeCacheEnabled at hop ⊢
    split
    · exact fresh_congr h ⟨rfl, fun _ _ => rfl⟩ rfl
    · rename_i hf
      rw [if_neg hf] at hop
      split
      · rename_i hl
        rw [if_pos hl] at hop
        simp only at hop ⊢
        split at hop
        · rename_i hr
          simp only [hr]
          right
          exact ⟨e, e.fillCascadeCache.2, Prod.ext hr rfl, rfl,
            ⟨(fill_emission e).shells.symm, fun k t => ((fill_emission e).energy k t).symm⟩⟩
        · rename_i o ho
          simp only at hop
          exact absurd hop ho
      · exact fresh_congr h ⟨rfl, fun _ _ => rfl⟩ rfl
  | fillCascadeCache =>
    simp only [Op.Calm] at hop
    simp only [step]
    right
    exact ⟨e, e.fillCascadeCache.2, Prod.ext hop rfl, rfl, (fill_emission e).symm⟩
  | emptyCascadeCache => exact Or.inl rfl
  | setCacheEnabled f => exact fresh_congr h ⟨rfl, fun _ _ => rfl⟩ rfl
  | clearCache => exact fresh_congr h ⟨rfl, fun _ _ => rfl⟩ rfl
  | fillCache l =>
    simp only [step, fillCache]
    obtain ⟨mc, ec, hh⟩ := (loop_frame { e.clearCache with cacheOn := false } (l.take cacheMaximumSize)).1
    rw [hh]
    exact fresh_congr h ⟨rfl, fun _ _ => rfl⟩ rfl
  | updateCache l =>
    simp only [step, updateCache]
    obtain ⟨mc, ec, hh⟩ := (loop_frame { e with cacheOn := false } l).2
    rw [hh]
    exact fresh_congr h ⟨rfl, fun _ _ => rfl⟩ rfl
  | _ => exact absurd hop (by simp [Op.Calm])

theorem fresh_run {e : Element K} (h : Fresh e) (ops : List (Op K)) (hops : CalmHistory e ops) :
    Fresh (run e ops) := by
  induction ops generalizing e with
  | nil => exact h
  | cons op r ih => exact ih (fresh_step h op hops.1) hops.2

/-- **C18** (partial) After the cascade cache is emptied, and for any later history of calls that does not use the
setters of binding energies and transitions (nor has a failing call to setShellConstants or to the routines
filling the cache), the emitted lines are those computed from the current data. Missing: those setters do not
invalidate the cascade cache, see the `C18_..._violated` theorems. -/
theorem C18_history_partial {e : Element K} (hempty : e.cascadeCache = []) (ops : List (Op K))
    (hops : CalmHistory e ops)
    (hT : TransfersNonneg (run e ops).shells) (hc : CleanShells (run e ops).shells)
    (hkeys : (run e ops).shells.keys = keys.take (run e ops).shells.length)
    (d : SMap Str K) (hds : SMap.Sorted d) (hd : ∀ p ∈ d, 0 ≤ p.2)
    (hdk : ∀ p ∈ d, 0 < p.2 → p.1 = allOther ∨ (run e ops).shells.mem p.1 = true) (c y : Bool) :
    (run e ops).getLines d c y = getLines { run e ops with cascadeOn := false } d c y :=
  C18_fresh_transparent (fresh_run (Or.inl hempty) ops hops) hT hc hkeys d hds hd hdk c y

/-! ## C19 -/

/-- The state seen by the computations when the calculation cache is not used. -/
def plain (e : Element K) : Element K := { e with cacheOn := false, muCache := [], excCache := [] }

theorem partialsLoop_congr {e e' : Element K} (hb : e.binding = e'.binding) (hE : e.partialE = e'.partialE)
    (hV : e.partialV = e'.partialV) (x : K) (l : List Str) (acc : SMap Str K) :
    partialsLoop e x l acc = partialsLoop e' x l acc := by
  induction l generalizing acc with
  | nil => rfl
  | cons s r ih =>
    unfold partialsLoop
    simp only [hb, hE, hV, ih]

theorem computeMu_plain (e : Element K) (x : K) : computeMu e x = computeMu (plain e) x := by
  unfold computeMu partialsOrZero getPartials
  rw [partialsLoop_congr (e := e) (e' := plain e) rfl rfl rfl]
  rfl

theorem computeMu_atomic (e : Element K) (z : Int) (x : K) :
    computeMu e x = computeMu { e with atomicNumber := z } x := by
  unfold computeMu partialsOrZero getPartials
  rw [partialsLoop_congr (e := e) (e' := { e with atomicNumber := z }) rfl rfl rfl]

theorem getMu_plain (e : Element K) (x : K) :
    getMu (plain e) x = if e.muEnergy.length < 1 then .throw .runtimeError else computeMu e x := by
  rw [computeMu_plain]
  unfold getMu
  rfl

theorem getLines_plain (e : Element K) (d : SMap Str K) (c y : Bool) :
    getLines e d c y = getLines (plain e) d c y :=
  getLines_congr (e := e) (e' := plain e) ⟨rfl, fun _ _ => rfl⟩ rfl rfl d c y

/-- The invariant: what is cached is what would be computed. -/
structure CacheTrue (e : Element K) : Prop where
  mu : ∀ x m, e.muCache.find? x = some m → getMu (plain e) x = .ok m
  exc : ∀ x f, e.excCache.find? x = some f → getFactors (plain e) x 1 = .ok f

theorem getMu_eq {e : Element K} (h : ∀ x m, e.muCache.find? x = some m → getMu (plain e) x = .ok m) (x : K) :
    getMu e x = getMu (plain e) x := by
  rw [getMu_plain]
  have hx := h x
  rw [getMu_plain] at hx
  unfold getMu
  split
  · rfl
  · rename_i hlen
    rw [if_neg hlen] at hx
    split
    · split
      · rename_i m hm
        exact (hx m hm).symm
      · rfl
    · rfl

theorem computeFactors_eq {e : Element K} (h : ∀ x m, e.muCache.find? x = some m → getMu (plain e) x = .ok m)
    (x w : K) : computeFactors e x w = computeFactors (plain e) x w := by
  unfold computeFactors getInitialVacancies
  simp only [getMu_eq h x, getLines_plain e]

theorem getFactors_plain (e : Element K) (x w : K) : getFactors (plain e) x w = computeFactors (plain e) x w := rfl

/-- The factors are proportional to the weight. -/
theorem computeFactors_scale (e : Element K) (x w : K) (f : SMap Str (Factor K))
    (h : computeFactors e x 1 = .ok f) :
    computeFactors e x w
      = .ok (f.map (fun l => (l.1, { l.2 with factor := l.2.factor * w, rate := l.2.rate * w }))) := by
  unfold computeFactors at h ⊢
  rw [Outcome.bind_eq_ok] at h
  obtain ⟨vac, hvac, h⟩ := h
  rw [Outcome.bind_eq_ok] at h
  obtain ⟨lines, hlines, h⟩ := h
  simp only [hvac, hlines, Outcome.ok_bind]
  split at h
  · rename_i hl
    cases h
    simp [hl]
  · rename_i hl
    rw [Outcome.bind_eq_ok] at h
    obtain ⟨m, hm, h⟩ := h
    simp only [Outcome.pure_eq, Outcome.ok.injEq] at h
    subst h
    rw [if_neg hl, hm]
    simp only [Outcome.ok_bind, Outcome.pure_eq, Outcome.ok.injEq, List.map_map]
    apply List.map_congr_left
    intro l _
    simp only [Function.comp, Prod.mk.injEq, Factor.mk.injEq, true_and]
    constructor <;> ring

/-- Under the invariant the cache is transparent. -/
theorem cacheTrue_transparent {e : Element K} (h : CacheTrue e) (x w : K) :
    getMu e x = getMu { e with cacheOn := false } x ∧
    getFactors e x w = getFactors { e with cacheOn := false } x w := by
  have hoff : ∀ x m, ({ e with cacheOn := false } : Element K).muCache.find? x = some m →
      getMu (plain { e with cacheOn := false }) x = .ok m := h.mu
  constructor
  · rw [getMu_eq h.mu, getMu_eq hoff]; rfl
  · have hR : getFactors { e with cacheOn := false } x w = computeFactors (plain e) x w :=
      computeFactors_eq hoff x w
    rw [hR]
    unfold getFactors
    split
    · split
      · rename_i c hc
        have := h.exc x c hc
        rw [getFactors_plain] at this
        exact (computeFactors_scale _ x w c this).symm
      · exact computeFactors_eq h.mu x w
    · exact computeFactors_eq h.mu x w

theorem cacheTrue_mu {e : Element K} (h : CacheTrue e) (x : K) (m : Mu K) (hm : getMu e x = .ok m) :
    CacheTrue { e with muCache := e.muCache.insert x m } := by
  constructor
  · intro y m' hy
    rw [SMap.find?_insert] at hy
    show getMu (plain e) y = _
    split at hy
    · rename_i hxy
      subst hxy
      cases hy
      rw [← getMu_eq h.mu]; exact hm
    · exact h.mu y m' hy
  · exact h.exc

theorem cacheTrue_exc {e : Element K} (h : CacheTrue e) (x : K) (f : SMap Str (Factor K))
    (hf : getFactors e x 1 = .ok f) : CacheTrue { e with excCache := e.excCache.insert x f } := by
  constructor
  · exact h.mu
  · intro y f' hy
    rw [SMap.find?_insert] at hy
    show getFactors (plain e) y 1 = _
    split at hy
    · rename_i hxy
      subst hxy
      cases hy
      have := (cacheTrue_transparent h x 1).2
      rw [this] at hf
      rw [← hf]
      exact (computeFactors_eq (e := { e with cacheOn := false }) h.mu x 1).symm
    · exact h.exc y f' hy

theorem cacheTrue_empty {e : Element K} (h1 : e.muCache = []) (h2 : e.excCache = []) : CacheTrue e := by
  constructor
  · intro x m hx; rw [h1] at hx; simp at hx
  · intro x m hx; rw [h2] at hx; simp at hx

theorem cacheTrue_congr {e f : Element K} (h : CacheTrue e) (h1 : plain f = plain e)
    (h2 : f.muCache = e.muCache) (h3 : f.excCache = e.excCache) : CacheTrue f := by
  constructor
  · rw [h1, h2]; exact h.mu
  · rw [h1, h3]; exact h.exc

/-- The calls after which the calculation cache is still valid: all but setBindingEnergies, the vector overload of
setRadiativeTransitions, the calls acting on the cascade cache, and failing calls to the other shell setters
when they are not rejected before changing anything. -/
def Op.KeepsCache (e : Element K) : Op K → Prop
  | .setBindingEnergies _ => False
  | .setRadiative _ _ _ => False
  | .setRadiativeMap s m => (e.setRadiativeMap s m).1 = .ok () ∨ (e.setRadiativeMap s m).2 = e
  | .setNonradiative s l v => (e.setNonradiative s l v).1 = .ok () ∨ (e.setNonradiative s l v).2 = e
  | .setNonradiativeMap s m => (e.setNonradiativeMap s m).1 = .ok () ∨ (e.setNonradiativeMap s m).2 = e
  | .setShellConstants s c => (e.setShellConstants s c).1 = .ok () ∨ (e.setShellConstants s c).2 = e
  | .setCascadeCacheEnabled _ => False
  | .fillCascadeCache => False
  | .emptyCascadeCache => False
  | _ => True

/-- Every call of a history keeps the cache valid in the state in which it is made. -/
def KeepsHistory (e : Element K) : List (Op K) → Prop
  | [] => True
  | op :: r => op.KeepsCache e ∧ KeepsHistory (e.step op).2 r

theorem setRadiativeMap_clears (e : Element K) (s : Str) (m : SMap Str K) (h : (e.setRadiativeMap s m).1 = .ok ()) :
    (e.setRadiativeMap s m).2.muCache = [] ∧ (e.setRadiativeMap s m).2.excCache = [] := by
  unfold setRadiativeMap at h ⊢
  cases hs : checkSubshell e s with
  | ok s' =>
    simp only [hs] at h ⊢
    cases hr : (s'.setRadiativeMap m).1 with
    | ok u => exact ⟨rfl, rfl⟩
    | throw x => simp only [hr] at h; cases h
    | ub x => simp only [hr] at h; cases h
    | diverge => simp only [hr] at h; cases h
  | throw x => simp only [hs] at h; cases h
  | ub x => simp only [hs] at h; cases h
  | diverge => simp only [hs] at h; cases h

theorem setNonradiative_clears (e : Element K) (s : Str) (l : List Str) (v : List K) (h : (e.setNonradiative s l v).1 = .ok ()) :
    (e.setNonradiative s l v).2.muCache = [] ∧ (e.setNonradiative s l v).2.excCache = [] := by
  unfold setNonradiative at h ⊢
  cases hs : checkSubshell e s with
  | ok s' =>
    simp only [hs] at h ⊢
    cases hr : (s'.setNonradiative l v).1 with
    | ok u => exact ⟨rfl, rfl⟩
    | throw x => simp only [hr] at h; cases h
    | ub x => simp only [hr] at h; cases h
    | diverge => simp only [hr] at h; cases h
  | throw x => simp only [hs] at h; cases h
  | ub x => simp only [hs] at h; cases h
  | diverge => simp only [hs] at h; cases h

theorem setNonradiativeMap_clears (e : Element K) (s : Str) (m : SMap Str K)
    (h : (e.setNonradiativeMap s m).1 = .ok ()) :
    (e.setNonradiativeMap s m).2.muCache = [] ∧ (e.setNonradiativeMap s m).2.excCache = [] :=
  setNonradiative_clears e s _ _ h

theorem setShellConstants_clears (e : Element K) (s : Str) (c : SMap Str K)
    (h : (e.setShellConstants s c).1 = .ok ()) :
    (e.setShellConstants s c).2.muCache = [] ∧ (e.setShellConstants s c).2.excCache = [] := by
  unfold setShellConstants at h ⊢
  cases hs : e.shells.find? s with
  | none => simp only [hs] at h; cases h
  | some s' =>
    simp only [hs] at h ⊢
    cases hr : (s'.setShellConstants c).1 with
    | ok u => exact ⟨rfl, rfl⟩
    | throw x => simp only [hr] at h; cases h
    | ub x => simp only [hr] at h; cases h
    | diverge => simp only [hr] at h; cases h

theorem cacheTrue_step {e : Element K} (h : CacheTrue e) (op : Op K) (hop : op.KeepsCache e) :
    CacheTrue (e.step op).2 := by
  cases op with
  | setAtomicNumber z =>
    simp only [step, setAtomicNumber]; split
    · exact h
    · refine ⟨fun x m hx => ?_, fun x f hx => ?_⟩
      · rw [← h.mu x m hx, getMu_plain, getMu_plain]
        have := (computeMu_atomic e z x).symm
        rw [this]
      · rw [← h.exc x f hx, getFactors_plain, getFactors_plain]
        unfold computeFactors getInitialVacancies
        rw [getMu_plain, getMu_plain, ← computeMu_atomic e z x]
        have hl : ∀ d, getLines (plain { e with atomicNumber := z }) d true true = getLines (plain e) d true true :=
          fun d => getLines_congr (e := plain { e with atomicNumber := z }) (e' := plain e)
            ⟨rfl, fun _ _ => rfl⟩ rfl rfl d true true
        simp only [hl]
  | setMass en ph co cm pa =>
    simp only [step, setMassAttenuationCoefficients]
    repeat' split
    all_goals first | exact h | exact cacheTrue_empty rfl rfl
  | setPartial s en v =>
    simp only [step, setPartial]
    repeat' split
    all_goals first | exact h | exact cacheTrue_empty rfl rfl
  | setRadiativeMap s m =>
    simp only [Op.KeepsCache] at hop
    simp only [step]
    rcases hop with hop | hop
    · have hcl := setRadiativeMap_clears e s m hop
      exact cacheTrue_empty hcl.1 hcl.2
    · rw [hop]; exact h
  | setNonradiative s l v =>
    simp only [Op.KeepsCache] at hop
    simp only [step]
    rcases hop with hop | hop
    · have hcl := setNonradiative_clears e s l v hop
      exact cacheTrue_empty hcl.1 hcl.2
    · rw [hop]; exact h
  | setNonradiativeMap s m =>
    simp only [Op.KeepsCache] at hop
    simp only [step]
    rcases hop with hop | hop
    · have hcl := setNonradiativeMap_clears e s m hop
      exact cacheTrue_empty hcl.1 hcl.2
    · rw [hop]; exact h
  | setShellConstants s c =>
    simp only [Op.KeepsCache] at hop
    simp only [step]
    rcases hop with hop | hop
    · have hcl := setShellConstants_clears e s c hop
      exact cacheTrue_empty hcl.1 hcl.2
    · rw [hop]; exact h
  | setCacheEnabled f => exact cacheTrue_congr h rfl rfl rfl
  | clearCache => exact cacheTrue_empty rfl rfl
  | fillCache l =>
    simp only [step, fillCache]
    have key : CacheTrue (fillLoop { e.clearCache with cacheOn := false } (l.take cacheMaximumSize)).2 :=
      fillLoop_induct CacheTrue (fun e x m hp hm => cacheTrue_mu hp x m hm)
        (fun e x f hp _ hf => cacheTrue_exc hp x f hf) _ _ (cacheTrue_empty rfl rfl)
    exact cacheTrue_congr key rfl rfl rfl
  | updateCache l =>
    simp only [step, updateCache]
    have key : CacheTrue (updateLoop { e with cacheOn := false } l).2 :=
      updateLoop_induct CacheTrue (fun e x m hp _ hm => cacheTrue_mu hp x m hm)
        (fun e x f hp _ hf => cacheTrue_exc hp x f hf) _ _ (cacheTrue_congr h rfl rfl rfl)
    exact cacheTrue_congr key rfl rfl rfl
  | _ => exact absurd hop (by simp [Op.KeepsCache])

/-- **C19** (partial) After any history that does not use setBindingEnergies, the vector overload of
setRadiativeTransitions or the calls on the cascade cache (and whose failing calls to shell setters changed
nothing), on an element whose calculation cache is empty at the beginning, coefficients and excitation factors are
the same with the cache enabled or not, at every energy and weight. Missing: the excluded calls leave outdated
entries, see the `C19_..._violated` theorems. -/
theorem C19_history_partial {e : Element K} (h1 : e.muCache = []) (h2 : e.excCache = []) (ops : List (Op K))
    (hops : KeepsHistory e ops) (x w : K) :
    (run e ops).getMu x = getMu { run e ops with cacheOn := false } x ∧
    (run e ops).getFactors x w = getFactors { run e ops with cacheOn := false } x w := by
  have key : ∀ (ops : List (Op K)) (e : Element K), CacheTrue e → KeepsHistory e ops → CacheTrue (run e ops) := by
    intro ops
    induction ops with
    | nil => intro e h _; exact h
    | cons op r ih => intro e h hk; exact ih _ (cacheTrue_step h op hk.1) hk.2
  exact cacheTrue_transparent (key ops e (cacheTrue_empty h1 h2) hops) x w

end histories

/-- A usual way to have clean shells: the shells are K, L1, ..., M5 and the lines of a shell carry its name. -/
theorem cleanShells_of_prefix {shells : SMap Str (Shell K)}
    (h : ∀ p ∈ shells, p.1 ∈ keys ∧ SMap.Sorted p.2.fluorescence ∧ 0 ≤ yieldOf p.2 ∧
      ∀ q ∈ p.2.fluorescence, 0 ≤ q.2 ∧ q.1.take p.1.length = p.1) : CleanShells shells := by
  refine ⟨fun k s hs => (h _ (SMap.mem_of_find? hs)).2.1,
    fun k s hs q hq => ((h _ (SMap.mem_of_find? hs)).2.2.2 q hq).1,
    fun k s hs => (h _ (SMap.mem_of_find? hs)).2.2.1, ?_⟩
  intro k s k' s' t r r' hs hs' ht ht'
  obtain ⟨hk, -, -, hl⟩ := h _ (SMap.mem_of_find? hs)
  obtain ⟨hk', -, -, hl'⟩ := h _ (SMap.mem_of_find? hs')
  have e1 : t.take k.length = k := (hl _ ht).2
  have e2 : t.take k'.length = k' := (hl' _ ht').2
  have key : ∀ k ∈ keys, ∀ k' ∈ keys, k.take k'.length = k' → k = k' := by decide
  rcases le_total k'.length k.length with hle | hle
  · apply key k hk k' hk'
    rw [← e1, List.take_take, Nat.min_eq_left hle]
    exact e2
  · symm
    apply key k' hk' k hk
    rw [← e2, List.take_take, Nat.min_eq_left hle]
    exact e1

/-! ### Examples and violations -/

section examples

attribute [local instance] exampleTrans

/-- Calls building an element with K, L1, L2 and L3 shells. -/
def exampleOps : List (Op ℚ) :=
  [.setBindingEnergies [("K".toList, 7), ("L1".toList, 9 / 10), ("L2".toList, 8 / 10), ("L3".toList, 7 / 10)],
   .setRadiativeMap "K".toList [("KL2".toList, 1), ("KL3".toList, 3)],
   .setNonradiativeMap "K".toList [("K-L1L3".toList, 2), ("TOTAL".toList, 2)],
   .setShellConstants "K".toList [("omega".toList, 1 / 2)],
   .setRadiativeMap "L3".toList [("L3M5".toList, 1)],
   .setShellConstants "L3".toList [("omega".toList, 1 / 4)]]

/-- The element of the examples. -/
def exampleElement : Element ℚ :=
  run { atomicNumber := 26, binding := [], muEnergy := [], mu := none, partialE := emptyPartials,
        partialV := emptyPartials, cacheOn := false, muCache := [], excCache := [], shells := [],
        cascadeOn := false, cascadeCache := [] } exampleOps

example : (mk? 26 : Outcome (Element ℚ)).bind (fun e => .ok (run e exampleOps)) = .ok exampleElement := rfl

/-- C16: a K vacancy gives L2 and L3 vacancies by fluorescence, and L1 and L3 ones by Auger transitions. -/
example : exampleElement.getCascade [("K".toList, 1)]
    = .ok [("K".toList, 1), ("L1".toList, 1 / 2), ("L2".toList, 1 / 8), ("L3".toList, 3 / 8 + 1 / 2)] := by
  decide +kernel

/-- C17, C18: the example meets the hypotheses on the shells that can be decided by computation. -/
example : exampleElement.shells.keys = keys.take exampleElement.shells.length ∧
    exampleElement.fillCascadeCache.1 = .ok () := by decide +kernel

/-- C17: and the lines with and without the cascade cache are the same. -/
example : exampleElement.fillCascadeCache.1 = .ok () ∧
    (getLines { exampleElement.fillCascadeCache.2 with cascadeOn := true }
      [("K".toList, 2), ("L3".toList, 1)] true true).bind (fun r => .ok (r.map (fun l => (l.1, l.2.rate))))
      = .ok [("KL2".toList, 1 / 4), ("KL3".toList, 3 / 4), ("L3M5".toList, 11 / 16)] := by decide +kernel

theorem exampleElement_clean : CleanShells exampleElement.shells :=
  cleanShells_of_prefix (by unfold SMap.Sorted; decide +kernel)

theorem exampleElement_transfers : TransfersNonneg exampleElement.shells := by
  intro k j hj t ht
  have key : ∀ p ∈ exampleElement.shells, ∀ j ∈ keys,
      (match transfer exampleElement.shells p.1 j with | .ok t => decide (0 ≤ t) | _ => true) = true := by
    decide +kernel
  unfold transfer at ht
  cases hs : exampleElement.shells.find? k with
  | none => rw [hs] at ht; cases ht
  | some s =>
    have h1 := key _ (SMap.mem_of_find? hs) j hj
    have h2 : transfer exampleElement.shells k j = .ok t := by unfold transfer; exact ht
    rw [h2] at h1
    simpa using h1

/-- C18: a calm history of the example, ending with the cascade cache in use. -/
example : CalmHistory exampleElement [.setShellConstants "L2".toList [("omega".toList, 1 / 8)],
    .setCascadeCacheEnabled true, .setCacheEnabled true] ∧
    (run exampleElement [.setShellConstants "L2".toList [("omega".toList, 1 / 8)],
      .setCascadeCacheEnabled true, .setCacheEnabled true]).cascadeCache.length = 4 := by
  simp only [CalmHistory, Op.Calm]
  decide +kernel

/-- **C18** (violation) Changing the radiative rates of a shell while the cascade cache is enabled: the old lines
are still emitted. -/
theorem C18_setRadiative_violated : ∃ e : Element ℚ,
    e = run exampleElement [.setCascadeCacheEnabled true, .setRadiativeMap "K".toList [("KL3".toList, 1)]] ∧
    (e.getLines [("K".toList, 1)] true true).bind (fun r => .ok (r.map Prod.fst))
      = .ok ["KL2".toList, "KL3".toList, "L3M5".toList] ∧
    (getLines { e with cascadeOn := false } [("K".toList, 1)] true true).bind (fun r => .ok (r.map Prod.fst))
      = .ok ["KL3".toList, "L3M5".toList] := by
  refine ⟨_, rfl, ?_⟩
  decide +kernel

/-- **C18** (violation) The same with the Auger rates. -/
theorem C18_setNonradiative_violated : ∃ e : Element ℚ,
    e = run exampleElement [.setCascadeCacheEnabled true,
      .setNonradiativeMap "K".toList [("K-L1L1".toList, 1), ("TOTAL".toList, 1)]] ∧
    (e.getLines [("K".toList, 1)] true true).bind (fun r => .ok (r.map (fun l => l.2.rate)))
      = .ok [1 / 8, 3 / 8, 7 / 32] ∧
    (getLines { e with cascadeOn := false } [("K".toList, 1)] true true).bind
      (fun r => .ok (r.map (fun l => l.2.rate))) = .ok [1 / 8, 3 / 8, 3 / 32] := by
  refine ⟨_, rfl, ?_⟩
  decide +kernel

/-- **C18** (violation) The same with the binding energies: the lines keep their old energies, and even stay those
of shells that no longer have any line. -/
theorem C18_setBindingEnergies_violated : ∃ e : Element ℚ,
    e = run exampleElement [.setCascadeCacheEnabled true, .setBindingEnergies [("K".toList, 5)]] ∧
    (e.getLines [("K".toList, 1)] true true).bind (fun r => .ok (r.map (fun l => l.2.energy)))
      = .ok [62 / 10, 63 / 10, 697 / 1000] ∧
    (getLines { e with cascadeOn := false } [("K".toList, 1)] true true) = .ok [] := by
  refine ⟨_, rfl, ?_⟩
  decide +kernel

/-- Calls giving an element on which the cascade cache cannot be filled: the energy of the line L1M5 is not defined,
the binding energy of M5 being negative. -/
def badFillOps : List (Op ℚ) :=
  [.setBindingEnergies [("K".toList, 7), ("L1".toList, 1), ("L2".toList, 1), ("L3".toList, 1), ("M1".toList, 1 / 2),
     ("M2".toList, 1 / 2), ("M3".toList, 1 / 2), ("M4".toList, 1 / 2), ("M5".toList, -1)],
   .setRadiativeMap "L1".toList [("L1M5".toList, 1)], .setShellConstants "L1".toList [("omega".toList, 1 / 2)],
   .setRadiativeMap "L2".toList [("L2M4".toList, 1)], .setShellConstants "L2".toList [("omega".toList, 1 / 2)]]

/-- **C18** (violation) When the filling of the cascade cache throws, the shells handled before stay in the cache; the
next call enabling the cache takes it as complete, and an L2 vacancy, which has a line, gives an exception. -/
theorem C18_failed_fill_violated : ∃ e : Element ℚ, e = run exampleElement badFillOps ∧
    (e.setCascadeCacheEnabled true).1 = .throw .runtimeError ∧
    (let e := (e.setCascadeCacheEnabled true).2
     (e.setCascadeCacheEnabled true).1 = .ok () ∧
     (let e := (e.setCascadeCacheEnabled true).2
      e.getLines [("L2".toList, 1)] true true = .throw .runtimeError ∧
      getLines { e with cascadeOn := false } [("L2".toList, 1)] true true
        = .ok [("L2M4".toList, { energy := 1 / 2, rate := 1 / 2 })])) := by
  refine ⟨_, rfl, ?_⟩
  decide +kernel

/-- **C17** (limit) Without the hypothesis on the labels the property is false: a five character label is stored
without being compared with the name of the shell, so that the K shell can hold the line "L1M2". The line of L1
then replaces it in the computation without cache, and is added to it in the computation with cache. -/
theorem C17_foreign_label_violated : ∃ e : Element ℚ,
    e = run exampleElement [
      .setRadiativeMap "K".toList [("L1M23".toList, 1)],
      .setNonradiativeMap "K".toList [("K-L2L2".toList, 1), ("TOTAL".toList, 1)],
      .setRadiativeMap "L1".toList [("L1M2".toList, 1)], .setShellConstants "L1".toList [("omega".toList, 1 / 2)],
      .setCascadeCacheEnabled true] ∧
    (e.getLines [("K".toList, 1), ("L1".toList, 1)] true true).bind (fun r => .ok (r.map (fun l => (l.1, l.2.rate))))
      = .ok [("L1M2".toList, 1)] ∧
    (getLines { e with cascadeOn := false } [("K".toList, 1), ("L1".toList, 1)] true true).bind
      (fun r => .ok (r.map (fun l => (l.1, l.2.rate))))
      = .ok [("L1M2".toList, 1 / 2)] := by
  refine ⟨_, rfl, ?_⟩
  decide +kernel

/-- **C17** (limit) Enabling the cascade cache changes which requests are accepted: vacancies in a shell the
element does not have are ignored without the cache and give an exception with it. -/
theorem C17_undefined_shell_violated : ∃ e : Element ℚ,
    e = run exampleElement [.setCascadeCacheEnabled true] ∧
    e.getLines [("K".toList, 1), ("N1".toList, 1)] true true = .throw .runtimeError ∧
    (getLines { e with cascadeOn := false } [("K".toList, 1), ("N1".toList, 1)] true true).isOk = true := by
  refine ⟨_, rfl, ?_⟩
  decide +kernel

/-- Binding energies of the examples with tables. -/
def tableBinding (x : ℚ) : SMap Str ℚ :=
  [("K".toList, x), ("L1".toList, 9 / 10), ("L2".toList, 8 / 10), ("L3".toList, 7 / 10), ("M1".toList, 0),
   ("M2".toList, 0), ("M3".toList, 0), ("M4".toList, 0), ("M5".toList, 0)]

/-- Calls giving tables of coefficients at the energy of the query
(the logarithms and exponentials cancel: the real functions give the same values). -/
def tableOps : List (Op ℚ) :=
  [.setBindingEnergies (tableBinding 7)] ++ exampleOps.drop 1 ++ [.setMass [8, 8] [3, 3] [1, 1] [1, 1] [],
    .setPartial "K".toList [8, 9] [3, 3], .setPartial "L1".toList [8, 9] [1, 1], .setPartial "L2".toList [8, 9] [1, 1],
    .setPartial "L3".toList [8, 9] [1, 1], .setPartial allOther [8, 8] [1, 1], .setCacheEnabled true, .updateCache [8]]

/-- C19: a history keeping the calculation cache valid, ending with data in both caches. -/
example : KeepsHistory (run exampleElement tableOps) [.setShellConstants "L3".toList [("omega".toList, 1 / 8)],
      .updateCache [8], .setCacheEnabled true] ∧
    (let e := run (run exampleElement tableOps) [.setShellConstants "L3".toList [("omega".toList, 1 / 8)],
      .updateCache [8], .setCacheEnabled true]
     e.muCache.length = 1 ∧ e.excCache.length = 1) := by
  simp only [KeepsHistory, Op.KeepsCache]
  decide +kernel

/-- **C19** (violation) setBindingEnergies does not clear the calculation cache: raising the K edge above 8 keV, the
coefficients at 8 keV remain the old ones. -/
theorem C19_setBindingEnergies_violated : ∃ e : Element ℚ,
    e = run exampleElement (tableOps ++ [.setBindingEnergies (tableBinding 10)]) ∧
    (e.getMu 8).bind (fun m => .ok m.photoelectric) = .ok 7 ∧
    (getMu { e with cacheOn := false } 8).bind (fun m => .ok m.photoelectric) = .ok 4 := by
  refine ⟨_, rfl, ?_⟩
  decide +kernel

/-- **C19** (violation) The vector overload of setRadiativeTransitions does not clear the calculation cache. -/
theorem C19_setRadiative_violated : ∃ e : Element ℚ,
    e = run exampleElement (tableOps ++ [.setRadiative "K".toList ["KL3".toList] [1]]) ∧
    (e.getFactors 8 1).bind (fun r => .ok (r.map Prod.fst)) = .ok ["KL2".toList, "KL3".toList, "L3M5".toList] ∧
    (getFactors { e with cacheOn := false } 8 1).bind (fun r => .ok (r.map Prod.fst))
      = .ok ["KL3".toList, "L3M5".toList] := by
  refine ⟨_, rfl, ?_⟩
  decide +kernel

/-- **C19** (violation) A rejected call to setShellConstants changes some constants before throwing, and leaves the
calculation cache as it was. -/
theorem C19_failed_constants_violated : ∃ e : Element ℚ,
    e = run exampleElement tableOps ∧
    (e.setShellConstants "L3".toList [("omega".toList, 1 / 8), ("zzz".toList, 1)]).1 = .throw .invalidArgument ∧
    (let e := (e.setShellConstants "L3".toList [("omega".toList, 1 / 8), ("zzz".toList, 1)]).2
     (e.getFactors 8 1).bind (fun r => .ok (r.map (fun l => l.2.rate))) = .ok [3 / 8, 9 / 8, 29 / 32] ∧
     (getFactors { e with cacheOn := false } 8 1).bind (fun r => .ok (r.map (fun l => l.2.rate)))
       = .ok [3 / 8, 9 / 8, 29 / 64]) := by
  refine ⟨_, rfl, ?_⟩
  decide +kernel

/-- **C19** (violation) Enabling the cascade cache after a change of the radiative rates with outdated cascade data
changes the factors while the calculation cache keeps the previous ones. -/
theorem C19_cascade_violated : ∃ e : Element ℚ,
    e = run exampleElement (tableOps ++
      [.setCascadeCacheEnabled true, .setCascadeCacheEnabled false,
       .setRadiativeMap "K".toList [("KL3".toList, 1)], .updateCache [8], .setCascadeCacheEnabled true]) ∧
    (e.getFactors 8 1).bind (fun r => .ok (r.map Prod.fst)) ≠
      (getFactors { e with cacheOn := false } 8 1).bind (fun r => .ok (r.map Prod.fst)) := by
  refine ⟨_, rfl, ?_⟩
  decide +kernel

end examples

end Element
end Fisx
