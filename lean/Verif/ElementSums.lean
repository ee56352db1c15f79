import Verif.ElementProps

/-!
# Sum rules of the coefficients of an element (C74)
-/

set_option linter.unusedSectionVars false

namespace Fisx
namespace Element

section general

variable {K : Type} [Field K] [LinearOrder K] [IsStrictOrderedRing K] [Trans K]

/-- The sum rules: the photoelectric coefficient is the sum over K, L1-L3, M1-M5 and "all other", the total one the
sum of the four processes, and the energy is the one asked for. -/
def SumRules (x : K) (m : Mu K) : Prop :=
  m.energy = x ∧
  m.photoelectric = (["K", "L1", "L2", "L3", "M1", "M2", "M3", "M4", "M5", "all other"].map
    (fun s : String => at0 m.partials s.toList)).sum ∧
  m.total = m.photoelectric + m.coherent + m.compton + m.pair

theorem computeMu_sums {e : Element K} {x : K} {m : Mu K} (h : computeMu e x = .ok m) : SumRules x m := by
  unfold computeMu at h
  obtain ⟨parts, _, h⟩ := Outcome.bind_eq_ok.1 h
  obtain ⟨b, _, h⟩ := Outcome.bind_eq_ok.1 h
  obtain ⟨coh, _, h⟩ := Outcome.bind_eq_ok.1 h
  obtain ⟨com, _, h⟩ := Outcome.bind_eq_ok.1 h
  obtain ⟨pai, _, h⟩ := Outcome.bind_eq_ok.1 h
  simp only [Outcome.pure_eq, Outcome.ok.injEq] at h
  have h1 := congrArg Mu.energy h
  have h2 := congrArg Mu.photoelectric h
  have h3 := congrArg Mu.total h
  have h4 := congrArg Mu.coherent h
  have h5 := congrArg Mu.compton h
  have h6 := congrArg Mu.pair h
  have h7 := congrArg Mu.partials h
  simp only at h1 h2 h3 h4 h5 h6 h7
  subst h7
  refine ⟨h1.symm, ?_, by rw [← h3, ← h2, ← h4, ← h5, ← h6]⟩
  rw [← h2]
  unfold allOther
  simp only [List.map_cons, List.map_nil, List.sum_cons, List.sum_nil]
  ring

/-- Invariant: the cached coefficients obey the sum rules. -/
def SumInv (e : Element K) : Prop := ∀ x m, e.muCache.find? x = some m → SumRules x m

theorem getMu_sums {e : Element K} (hc : SumInv e) {x : K} {m : Mu K} (hm : e.getMu x = .ok m) : SumRules x m := by
  unfold getMu at hm
  split at hm
  · cases hm
  · split at hm
    · split at hm
      · rename_i m' hm'
        cases hm
        exact hc x _ hm'
      · exact computeMu_sums hm
    · exact computeMu_sums hm

theorem sumInv_mu {e : Element K} (h : SumInv e) (x : K) (m : Mu K) (hm : e.getMu x = .ok m) :
    SumInv { e with muCache := e.muCache.insert x m } := by
  intro y m' hy
  simp only [SMap.find?_insert] at hy
  split at hy
  · rename_i hxy
    cases hy; exact hxy ▸ getMu_sums h hm
  · exact h y m' hy

theorem sumInv_step {e : Element K} (h : SumInv e) (op : Op K) : SumInv (e.step op).2 := by
  have other : (∀ l, op ≠ .fillCache l) → (∀ l, op ≠ .updateCache l) → SumInv (e.step op).2 := by
    intro h2 h3
    rcases step_caches e op ⟨h2, h3⟩ with ⟨g, _⟩ | ⟨g, _⟩
    · unfold SumInv; rw [g]; exact h
    · unfold SumInv; rw [g]; intro x m hx; simp at hx
  cases op with
  | fillCache l =>
    simp only [step, fillCache]
    have key : SumInv (fillLoop { e.clearCache with cacheOn := false } (l.take cacheMaximumSize)).2 := by
      apply fillLoop_induct SumInv (fun e x m hp hm => sumInv_mu hp x m hm) (fun e x f hp _ _ => hp)
      intro x m hx; simp [clearCache] at hx
    exact key
  | updateCache l =>
    simp only [step, updateCache]
    have key : SumInv (updateLoop { e with cacheOn := false } l).2 := by
      apply updateLoop_induct SumInv (fun e x m hp _ hm => sumInv_mu hp x m hm) (fun e x f hp _ _ => hp)
      exact h
    exact key
  | _ => exact other (by simp) (by simp)

theorem sumInv_run {e : Element K} (h : SumInv e) (ops : List (Op K)) : SumInv (run e ops) := by
  induction ops generalizing e with
  | nil => exact h
  | cons op r ih => exact ih (sumInv_step h op)

/-- **C74** For every history of calls on a new element, whether its cache is enabled or not: the coefficients
returned for an energy carry that energy, the photoelectric one is the sum of those of the K, L and M shells and of
"all other", and the total one is the sum of photoelectric, coherent, Compton and pair production. -/
theorem C74_sums {z : Int} {e0 : Element K} (h0 : mk? z = .ok e0) (ops : List (Op K)) (x : K) (m : Mu K)
    (hm : (run e0 ops).getMu x = .ok m) :
    m.energy = x ∧
    m.photoelectric = (["K", "L1", "L2", "L3", "M1", "M2", "M3", "M4", "M5", "all other"].map
      (fun s : String => at0 m.partials s.toList)).sum ∧
    m.total = m.photoelectric + m.coherent + m.compton + m.pair := by
  refine getMu_sums (sumInv_run ?_ ops) hm
  unfold mk? at h0
  split at h0
  · cases h0
  · cases h0
    intro x m hx; simp at hx

/-- **C74** (finding) The photoelectric coefficients given with setMassAttenuationCoefficients take no part in the
coefficients returned: as long as no partial photoelectric coefficients are given the photoelectric one is zero. -/
theorem C74_no_partials (e : Element K) (hoff : e.cacheOn = false) (hp : ∀ p ∈ e.partialE, p.2 = []) (x : K) (m : Mu K)
    (hm : e.getMu x = .ok m) : m.photoelectric = 0 ∧ m.total = m.coherent + m.compton + m.pair := by
  have hz : e.partialsOrZero x = .ok (SMap.ofList (photoShells.map (fun s => (s, (0 : K))))) := by
    unfold partialsOrZero
    rw [if_neg]
    simp only [List.any_eq_true, decide_eq_true_eq, not_exists, not_and]
    intro p h
    rw [hp p h]; simp
  unfold getMu at hm
  split at hm
  · cases hm
  · rw [if_neg (by simp [hoff])] at hm
    have hs := computeMu_sums hm
    unfold computeMu at hm
    rw [hz] at hm
    simp only [Outcome.ok_bind] at hm
    obtain ⟨b, _, h⟩ := Outcome.bind_eq_ok.1 hm
    obtain ⟨coh, _, h⟩ := Outcome.bind_eq_ok.1 h
    obtain ⟨com, _, h⟩ := Outcome.bind_eq_ok.1 h
    obtain ⟨pai, _, h⟩ := Outcome.bind_eq_ok.1 h
    simp only [Outcome.pure_eq, Outcome.ok.injEq] at h
    have hpart : m.partials = SMap.ofList (photoShells.map (fun s => (s, (0 : K)))) := by rw [← h]
    have h0 : ∀ s, at0 m.partials s = 0 := by
      intro s
      rw [hpart]
      unfold at0
      cases hf : SMap.find? (SMap.ofList (photoShells.map (fun s => (s, (0 : K))))) s with
      | none => rfl
      | some v =>
        have := SMap.ofList_mem (SMap.mem_of_find? hf)
        obtain ⟨q, _, hq⟩ := List.mem_map.1 this
        simp only [Prod.mk.injEq] at hq
        simp [← hq.2]
    have hph : m.photoelectric = 0 := by
      rw [hs.2.1]
      simp [h0]
    refine ⟨hph, ?_⟩
    rw [hs.2.2, hph]; ring

end general

/-- A history meeting the hypothesis of C74, read from the cache, with all terms positive. -/
example : letI := exampleTrans
    ∃ e0 : Element ℚ, mk? 8 = .ok e0 ∧
    ((run e0 [.setBindingEnergies (keys.map (fun k => (k, if k = "K".toList then 1 / 2 else 0))),
      .setMass [1, 1] [3, 3] [1, 1] [2, 2] [5, 5],
      .setPartial "K".toList [1, 2] [3, 3], .setPartial allOther [1, 1] [3, 3],
      .setCacheEnabled true, .updateCache [1]]).getMu 1).bind (fun m => .ok (m.photoelectric, m.total)) = .ok (6, 14) := by
  refine ⟨_, rfl, ?_⟩
  decide +kernel

end Element
end Fisx
