import Verif.ElementCache

/-!
# Order of evaluation in `Element::fillCache` and `Element::updateCache` (property C129)

`cache[energy] = compute(energy)`: before C++17 the left side may be evaluated first, which creates an empty entry
before the computation is made. A comment in the code (fisx_element.cpp:1691-1692, 1714-1715) says that clang does so.
`Verif/Element.lean` has the order of C++17; here is the other one.
-/

set_option linter.unusedSectionVars false

namespace Fisx

theorem SMap.insert_insert {κ ν : Type} [LinearOrder κ] (m : SMap κ ν) (k : κ) (v w : ν) :
    (m.insert k v).insert k w = m.insert k w := by
  induction m with
  | nil => simp [SMap.insert]
  | cons a t ih =>
    obtain ⟨k', v'⟩ := a
    by_cases h1 : k < k'
    · simp [SMap.insert, h1]
    · by_cases h2 : k' = k
      · subst h2
        simp [SMap.insert]
      · simp [SMap.insert, h1, h2, ih]

namespace Element

variable {K : Type} [Field K] [LinearOrder K] [IsStrictOrderedRing K] [Trans K]

/-- The entry created by the left side: an empty map of coefficients. Simplification: a map without keys reads as zeros. -/
def emptyMu : Mu K := { energy := 0, partials := [], coherent := 0, compton := 0, pair := 0, photoelectric := 0, total := 0 }

/-- fisx_element.cpp:1695-1699 with the left sides evaluated first. -/
def fillLoopLeft (e : Element K) (energies : List K) : Outcome Unit × Element K :=
  match energies with
  | [] => (.ok (), e)
  | x :: rest =>
    let e := { e with muCache := e.muCache.insert x emptyMu }
    match getMu e x with
    | .ok m =>
      let e := { e with muCache := e.muCache.insert x m }
      let e := { e with excCache := e.excCache.insert x [] }
      match getFactors e x 1 with
      | .ok f => fillLoopLeft { e with excCache := e.excCache.insert x f } rest
      | .throw t => (.throw t, e)
      | .ub u => (.ub u, e)
      | .diverge => (.diverge, e)
    | .throw t => (.throw t, e)
    | .ub u => (.ub u, e)
    | .diverge => (.diverge, e)

/-- fisx_element.cpp:1674-1707, `fillCache` with this order. -/
def fillCacheLeft (e : Element K) (energies : List K) : Outcome Unit × Element K :=
  let r := fillLoopLeft { e.clearCache with cacheOn := false } (energies.take cacheMaximumSize)
  (r.1, { r.2 with cacheOn := e.cacheOn })

/-- fisx_element.cpp:1721-1734 with the left sides evaluated first. -/
def updateLoopLeft (e : Element K) (energies : List K) : Outcome Unit × Element K :=
  match energies with
  | [] => (.ok (), e)
  | x :: rest =>
    if e.muCache.length < cacheMaximumSize then
      let r1 : Outcome Unit × Element K :=
        if e.muCache.mem x then (.ok (), e)
        else
          let e := { e with muCache := e.muCache.insert x emptyMu }
          match getMu e x with
          | .ok m => (.ok (), { e with muCache := e.muCache.insert x m })
          | .throw t => (.throw t, e)
          | .ub u => (.ub u, e)
          | .diverge => (.diverge, e)
      match r1.1 with
      | .ok () =>
        let e := r1.2
        if e.excCache.mem x then updateLoopLeft e rest
        else
          let e := { e with excCache := e.excCache.insert x [] }
          match getFactors e x 1 with
          | .ok f => updateLoopLeft { e with excCache := e.excCache.insert x f } rest
          | .throw t => (.throw t, e)
          | .ub u => (.ub u, e)
          | .diverge => (.diverge, e)
      | o => (o, r1.2)
    else updateLoopLeft e rest

/-- fisx_element.cpp:1709-1750, `updateCache` with this order. -/
def updateCacheLeft (e : Element K) (energies : List K) : Outcome Unit × Element K :=
  let r := updateLoopLeft { e with cacheOn := false } energies
  (r.1, { r.2 with cacheOn := e.cacheOn })

/-- Without the cache flag the caches are not looked at. -/
theorem getMu_off {e e' : Element K} (h : e.cacheOn = false) (h' : e'.cacheOn = false) (hp : plain e' = plain e) (x : K) :
    getMu e' x = getMu e x := by
  have h1 : ∀ f : Element K, f.cacheOn = false → getMu f x = getMu (plain f) x := by
    intro f hf
    rw [getMu_plain]
    unfold getMu
    rw [hf]
    rfl
  rw [h1 e h, h1 e' h', hp]

theorem getFactors_off {e e' : Element K} (h : e.cacheOn = false) (h' : e'.cacheOn = false) (hp : plain e' = plain e) (x w : K) :
    getFactors e' x w = getFactors e x w := by
  have h1 : ∀ f : Element K, f.cacheOn = false → getFactors f x w = computeFactors (plain f) x w := by
    intro f hf
    have h2 : getFactors f x w = computeFactors f x w := by unfold getFactors; rw [hf]; rfl
    rw [h2]
    unfold computeFactors getInitialVacancies
    rw [getMu_off (e := plain f) (e' := f) rfl hf rfl]
    simp only [getLines_plain f]
  rw [h1 e h, h1 e' h', hp]

theorem fillLoopLeft_eq : ∀ (l : List K) (e : Element K), e.cacheOn = false → (fillLoop e l).1 = .ok () →
    fillLoopLeft e l = fillLoop e l
  | [], _, _, _ => rfl
  | x :: l, e, ho, h => by
    unfold fillLoop at h ⊢
    unfold fillLoopLeft
    dsimp only
    rw [getMu_off (e := e) (e' := { e with muCache := e.muCache.insert x emptyMu }) ho ho rfl]
    cases hm : getMu e x with
    | ok m =>
      rw [hm] at h
      dsimp only at h ⊢
      rw [getFactors_off (e := { e with muCache := e.muCache.insert x m })
        (e' := { e with muCache := (e.muCache.insert x emptyMu).insert x m, excCache := e.excCache.insert x [] }) ho ho rfl]
      cases hf : getFactors { e with muCache := e.muCache.insert x m } x 1 with
      | ok f =>
        rw [hf] at h
        dsimp only at h ⊢
        rw [SMap.insert_insert, SMap.insert_insert]
        exact fillLoopLeft_eq l _ ho h
      | throw _ => rw [hf] at h; cases h
      | ub _ => rw [hf] at h; cases h
      | diverge => rw [hf] at h; cases h
    | throw _ => rw [hm] at h; cases h
    | ub _ => rw [hm] at h; cases h
    | diverge => rw [hm] at h; cases h

theorem updateLoopLeft_eq : ∀ (l : List K) (e : Element K), e.cacheOn = false → (updateLoop e l).1 = .ok () →
    updateLoopLeft e l = updateLoop e l
  | [], _, _, _ => rfl
  | x :: l, e, ho, h => by
    have key : ∀ e' : Element K, e'.cacheOn = false →
        (if e'.excCache.mem x then updateLoop e' l
        else match getFactors e' x 1 with
          | .ok f => updateLoop { e' with excCache := e'.excCache.insert x f } l
          | .throw t => (.throw t, e')
          | .ub u => (.ub u, e')
          | .diverge => (.diverge, e')).1 = .ok () →
        (if e'.excCache.mem x then updateLoopLeft e' l
        else
          let e := { e' with excCache := e'.excCache.insert x [] }
          match getFactors e x 1 with
          | .ok f => updateLoopLeft { e with excCache := e.excCache.insert x f } l
          | .throw t => (.throw t, e)
          | .ub u => (.ub u, e)
          | .diverge => (.diverge, e)) =
        (if e'.excCache.mem x then updateLoop e' l
        else match getFactors e' x 1 with
          | .ok f => updateLoop { e' with excCache := e'.excCache.insert x f } l
          | .throw t => (.throw t, e')
          | .ub u => (.ub u, e')
          | .diverge => (.diverge, e')) := by
      intro e' ho' h'
      split_ifs at h' ⊢ with hmem
      · exact updateLoopLeft_eq l e' ho' h'
      · dsimp only
        rw [getFactors_off (e := e') (e' := { e' with excCache := e'.excCache.insert x [] }) ho' ho' rfl]
        cases hf : getFactors e' x 1 with
        | ok f =>
          rw [hf] at h'
          dsimp only at h' ⊢
          rw [SMap.insert_insert]
          exact updateLoopLeft_eq l _ ho' h'
        | throw _ => rw [hf] at h'; cases h'
        | ub _ => rw [hf] at h'; cases h'
        | diverge => rw [hf] at h'; cases h'
    unfold updateLoop at h ⊢
    unfold updateLoopLeft
    dsimp only at h ⊢
    by_cases h1 : e.muCache.length < cacheMaximumSize
    · rw [if_pos h1] at h ⊢
      rw [if_pos h1]
      by_cases h2 : e.muCache.mem x = true
      · simp only [if_pos h2] at h ⊢
        exact key e ho h
      · simp only [if_neg h2] at h ⊢
        rw [getMu_off (e := e) (e' := { e with muCache := e.muCache.insert x emptyMu }) ho ho rfl]
        cases hm : getMu e x with
        | ok m =>
          rw [hm] at h
          dsimp only at h ⊢
          rw [SMap.insert_insert]
          exact key { e with muCache := e.muCache.insert x m } ho h
        | throw _ => rw [hm] at h; cases h
        | ub _ => rw [hm] at h; cases h
        | diverge => rw [hm] at h; cases h
    · rw [if_neg h1] at h ⊢
      rw [if_neg h1]
      exact updateLoopLeft_eq l e ho h

/-- **C129** (partial) For every element and energies: when the caches are filled without an exception, the order of
evaluation makes no difference. Missing: calls that throw, see `C129_left_first_violated`. -/
theorem C129_order_partial (e : Element K) (l : List K) :
    ((e.fillCache l).1 = .ok () → e.fillCacheLeft l = e.fillCache l) ∧
    ((e.updateCache l).1 = .ok () → e.updateCacheLeft l = e.updateCache l) := by
  constructor
  · intro h
    unfold fillCacheLeft fillCache
    dsimp only
    rw [fillLoopLeft_eq (l.take cacheMaximumSize) { e.clearCache with cacheOn := false } rfl h]
  · intro h
    unfold updateCacheLeft updateCache
    dsimp only
    rw [updateLoopLeft_eq l { e with cacheOn := false } rfl h]

/-- With the order of C++17 a failing call leaves only answers that are right (this is C19, C128); with the other order
C129 is false: an element without tables of coefficients refuses to give excitation factors, but answers that there are
none after two failed attempts to fill its cache. -/
theorem C129_left_first_violated : letI := exampleTrans
    ∃ e : Element ℚ, e.getFactors 8 1 = .throw .runtimeError ∧
    (e.updateCacheLeft [8]).1 = .throw .runtimeError ∧
    ((e.updateCacheLeft [8]).2.updateCacheLeft [8]).1 = .throw .runtimeError ∧
    ((e.updateCacheLeft [8]).2.updateCacheLeft [8]).2.getFactors 8 1 = .ok [] ∧
    ((e.updateCache [8]).2.updateCache [8]).2.getFactors 8 1 = .throw .runtimeError := by
  letI := exampleTrans
  exact ⟨{ exampleElement with cacheOn := true }, by decide +kernel⟩

/-- A call meeting the hypothesis of C129 and filling the caches. -/
example : letI := exampleTrans
    let e := run exampleElement (tableOps.take 12)
    (e.fillCache [8, 9]).1 = .ok () ∧ (e.fillCache [8, 9]).2.excCache.length = 2 ∧
    (e.updateCache [8, 9]).1 = .ok () ∧ (e.updateCache [8, 9]).2.muCache.length = 2 := by
  decide +kernel

end Element
end Fisx
