import Verif.MultilayerPrimary
import Verif.ElementTotal

/-!
# `getMultilayerFluorescence` completes (property C77)

First for the calculation over an environment of physical functions, then for a configuration and a library.
-/

set_option linter.unusedSectionVars false

namespace Fisx

namespace Multilayer

open Xrf (Request)
open Outcome (Good)

section calculation

variable {K : Type} [Field K] [LinearOrder K] [IsStrictOrderedRing K]

/-- The functions of the environment return (or throw, when `b` is true) for the layers of the sample and for the
elements `known`. -/
structure Answers (b : Bool) (env : Env K) (known : String → Prop) : Prop where
  mu : ∀ i, i < env.layers.length → ∀ e, Good b (env.mu i e)
  mus : ∀ i, i < env.layers.length → ∀ es, Good b (env.mus i es)
  mus_length : ∀ i es ms, env.mus i es = .ok ms → ms.length = es.length
  families : ∀ i, i < env.layers.length → ∀ e, Good b (env.families i e)
  families_known : ∀ i e fam, env.families i e = .ok fam → ∀ f ∈ fam, known (String.ofList (familyParts f.1.toList).1)
  excite : ∀ el, known el → ∀ e w, Good b (env.excite el e w)
  threshold : ∀ el, known el → ∀ f, Good b (env.threshold el f)
  transmission : ∀ j, j < env.layers.length → ∀ e, Good b (env.transmission j e)
  attenuators : ∀ a ∈ env.attenuators, ∀ e, Good b (a e)
  intrinsic : env.hasDetector = true → ∀ e, Good b (env.intrinsic e)
  escape : env.hasDetector = true → ∀ e, Good b (env.escape e)

variable {b : Bool} {env : Env K} {known : String → Prop} {o : Options K}

theorem incident_good (ha : Answers b env known) (e : K) : ∀ (ls : List (LayerData K)) (i : Nat) (acc : K),
    i + ls.length ≤ env.layers.length → Good b (incident env e i ls acc)
  | [], _, _, _ => trivial
  | l :: ls, i, acc, h => by
    simp only [List.length_cons] at h
    unfold incident
    refine (ha.mu i (by omega) e).bind fun m _ => ?_
    refine (incident_good ha e ls (i + 1) _ (by omega)).bind fun r _ => trivial

theorem incident_length (e : K) : ∀ (ls : List (LayerData K)) (i : Nat) (acc : K) (r : List (K × K)),
    incident env e i ls acc = .ok r → r.length = ls.length
  | [], _, _, r, h => by simp only [incident, Outcome.ok.injEq] at h; subst h; rfl
  | l :: ls, i, acc, r, h => by
    simp only [incident, Outcome.bind_eq_ok, Outcome.pure_eq, Outcome.ok.injEq] at h
    obtain ⟨m, -, r', h', rfl⟩ := h
    simp [incident_length e ls _ _ _ h']

theorem familiesLoop_good (ha : Answers b env known) (minE e w lw : K) (comp : SMap String K) :
    ∀ fam : List (String × K), (∀ f ∈ fam, known (String.ofList (familyParts f.1.toList).1)) →
      Good b (familiesLoop env o minE e w lw comp fam)
  | [], _ => trivial
  | f :: rest, h => by
    unfold familiesLoop
    refine (ha.excite _ (h f (by simp)) e 1).bind fun fs _ => ?_
    exact (familiesLoop_good ha minE e w lw comp rest (fun g hg => h g (by simp [hg]))).bind fun r _ => trivial

theorem layerEmissions_good (ha : Answers b env known) (minE e w : K) (i : Nat) (l : LayerData K) (lw : K)
    (hi : i < env.layers.length) : Good b (layerEmissions env o minE e w i l lw) := by
  unfold layerEmissions
  refine (ha.families i hi e).bind fun fam hf => ?_
  refine (familiesLoop_good ha minE e w lw l.composition fam (ha.families_known i e fam hf)).bind fun raw _ => ?_
  refine (ha.mus i hi _).bind fun ms hms => ?_
  have hl := ha.mus_length _ _ _ hms
  rcases hms' : ms.getLast? with _ | last
  · have := List.getLast?_eq_none_iff.mp hms'
    subst this
    simp at hl
  · trivial

theorem emissionsLoop_good (ha : Answers b env known) (minE e w : K) : ∀ (ls : List (LayerData K)) (ps : List (K × K))
    (i : Nat), i + ls.length ≤ env.layers.length → Good b (emissionsLoop env o minE e w i ls ps)
  | [], ps, i, _ => by unfold emissionsLoop; trivial
  | l :: ls, [], i, _ => by unfold emissionsLoop; trivial
  | l :: ls, p :: ps, i, h => by
    simp only [List.length_cons] at h
    unfold emissionsLoop
    refine (layerEmissions_good ha minE e w i l p.1 (by omega)).bind fun em _ => ?_
    exact (emissionsLoop_good ha minE e w ls ps (i + 1) (by omega)).bind fun r _ => trivial

theorem emissionsLoop_length (minE e w : K) : ∀ (ls : List (LayerData K)) (ps : List (K × K))
    (i : Nat) (r : List (List (Emission K))), ps.length = ls.length → emissionsLoop env o minE e w i ls ps = .ok r →
      r.length = ls.length
  | [], ps, i, r, hl, h => by
    have : ps = [] := List.length_eq_zero_iff.mp hl
    subst this
    simp only [emissionsLoop, Outcome.ok.injEq] at h; subst h; rfl
  | l :: ls, [], i, r, hl, h => by simp at hl
  | l :: ls, p :: ps, i, r, hl, h => by
    simp only [emissionsLoop, Outcome.bind_eq_ok, Outcome.pure_eq, Outcome.ok.injEq] at h
    obtain ⟨em, -, r', h', rfl⟩ := h
    simp [emissionsLoop_length minE e w ls ps _ _ (by simpa using hl) h']

theorem cacheLoop_good (ha : Answers b env known) (es : List K) : ∀ (n i : Nat), i + n ≤ env.layers.length →
    Good b (cacheLoop env es i n)
  | 0, _, _ => trivial
  | n + 1, i, h => by
    unfold cacheLoop
    refine (ha.mus i (by omega) es).bind fun ms _ => ?_
    exact (cacheLoop_good ha es n (i + 1) (by omega)).bind fun r _ => trivial

theorem cacheLoop_length (ha : Answers b env known) (es : List K) : ∀ (n i : Nat) (r : List (List K)),
    cacheLoop env es i n = .ok r → r.length = n ∧ ∀ v ∈ r, v.length = es.length
  | 0, i, r, h => by simp only [cacheLoop, Outcome.ok.injEq] at h; subst h; simp
  | n + 1, i, r, h => by
    simp only [cacheLoop, Outcome.bind_eq_ok, Outcome.pure_eq, Outcome.ok.injEq] at h
    obtain ⟨ms, hm, r', h', rfl⟩ := h
    obtain ⟨h1, h2⟩ := cacheLoop_length ha es n _ _ h'
    refine ⟨by simp [h1], ?_⟩
    intro v hv
    rcases List.mem_cons.mp hv with rfl | hv
    · simp [ha.mus_length _ _ _ hm]
    · exact h2 v hv

/-- The vectors of a ray have one entry per layer. -/
structure RayShape (env : Env K) (o : Options K) (rd : RayData K) : Prop where
  incident : rd.incident.length = env.layers.length
  emissions : o.secondary > 0 → rd.emissions.length = env.layers.length
  cache : rd.cacheMus.length = env.layers.length
  cache_row : ∀ v ∈ rd.cacheMus, v.length = rd.cacheEnergies.length

theorem rayData_good (ha : Answers b env known) (minE e w : K) : Good b (rayData env o minE e w) := by
  unfold rayData
  refine (incident_good ha e env.layers 0 0 (by simp)).bind fun inc hi => ?_
  refine Good.bind ?_ fun ems _ => ?_
  · split_ifs
    · exact emissionsLoop_good ha minE e w env.layers inc 0 (by simp)
    · trivial
  · exact (cacheLoop_good ha _ env.layers.length 0 (by simp)).bind fun r _ => trivial

theorem rayData_shape (ha : Answers b env known) (minE e w : K) (rd : RayData K) (h : rayData env o minE e w = .ok rd) :
    RayShape env o rd := by
  simp only [rayData, Outcome.bind_eq_ok, Outcome.pure_eq, Outcome.ok.injEq] at h
  obtain ⟨inc, hi, ems, he, cs, hc, rfl⟩ := h
  have h1 := incident_length e _ _ _ _ hi
  obtain ⟨h2, h3⟩ := cacheLoop_length ha _ _ _ _ hc
  refine ⟨h1, ?_, h2, h3⟩
  intro hs
  rw [if_pos hs] at he
  exact emissionsLoop_length minE e w _ _ _ _ h1 he

theorem cachedMu_good (ha : Answers b env known) {rd : RayData K} (hr : RayShape env o rd) (i : Nat)
    (hi : i < env.layers.length) (e : K) : Good b (cachedMu env rd i e) := by
  unfold cachedMu
  split_ifs with he
  · refine (vget_good (by rw [hr.cache]; exact hi)).bind fun v hv => ?_
    apply vget_good
    have hm : v ∈ rd.cacheMus := List.mem_of_getElem? (vget_ok.mp hv)
    rw [hr.cache_row v hm]
    exact List.findIdx_lt_length_of_exists ⟨e, he, by simp⟩
  · exact ha.mu i hi e

theorem betweenLoop_good (ha : Answers b env known) {rd : RayData K} (hr : RayShape env o rd) (e : K) :
    ∀ (n i : Nat) (acc : K), i + n ≤ env.layers.length → Good b (betweenLoop env rd e i n acc)
  | 0, _, _, _ => trivial
  | n + 1, i, acc, h => by
    unfold betweenLoop
    refine (vget_good (by omega)).bind fun l _ => ?_
    refine (cachedMu_good ha hr i (by omega) e).bind fun m _ => ?_
    exact betweenLoop_good ha hr e n (i + 1) _ (by omega)

/-- The integrals return (or throw). -/
structure Integrals (b : Bool) (env : Env K) : Prop where
  l0 : ∀ a1 a2 a3 a4 a5, Good b (env.l0 a1 a2 a3 a4 a5)
  x : ∀ a1 a2 a3 a4 a5 a6 a7, Good b (env.x a1 a2 a3 a4 a5 a6 a7)

theorem intra_good (hI : Integrals b env) (l : LayerData K) (muIn frac : K) (em : Emission K)
    (fs : SMap Str (Factor K)) (t : Str) (p : Tmp K) : Good b (intra env l muIn frac em fs t p) := by
  unfold intra
  split
  · trivial
  · refine (hI.l0 _ _ _ _ _).bind fun a _ => ?_
    refine Good.bind ?_ fun _ _ => trivial
    split_ifs <;> exact hI.l0 _ _ _ _ _

theorem inter_good (ha : Answers b env known) (hI : Integrals b env) {rd : RayData K} (hr : RayShape env o rd)
    (i j : Nat) (hi : i < env.layers.length) (hj : j < env.layers.length) (l1 l2 : LayerData K) (mu2 frac : K)
    (em : Emission K) (fs : SMap Str (Factor K)) (t : Str) (p : Tmp K) :
    Good b (inter env rd i j l1 l2 mu2 frac em fs t p) := by
  unfold inter
  split
  · trivial
  · refine Good.ite (fun _ => trivial) fun h1 => ?_
    refine (cachedMu_good ha hr i hi _).bind fun m _ => ?_
    refine Good.ite (fun h2 => ?_) (fun h2 => ?_)
    · refine (betweenLoop_good ha hr _ _ _ _ (by omega)).bind fun mb _ => ?_
      refine Good.ite (fun _ => trivial) fun _ => ?_
      refine Good.bind ?_ fun _ _ => trivial
      exact Good.ite (fun _ => hI.x _ _ _ _ _ _ _) (fun _ => hI.x _ _ _ _ _ _ _)
    · refine (betweenLoop_good ha hr _ _ _ _ (by omega)).bind fun mb _ => ?_
      refine Good.bind ?_ fun _ _ => trivial
      exact Good.ite (fun _ => hI.x _ _ _ _ _ _ _) (fun _ => hI.x _ _ _ _ _ _ _)

theorem lineLoop_good {f : Str → Tmp K → Outcome (Option K)} (hf : ∀ t p, Good b (f t p)) (name : Str) :
    ∀ lines : List (Str × Tmp K), Good b (lineLoop f name lines)
  | [] => trivial
  | (t, p) :: rest => by
    unfold lineLoop
    refine (hf t p).bind fun v _ => ?_
    refine (lineLoop_good hf name rest).bind fun r _ => ?_
    cases v <;> trivial

theorem emissionLoop_good (ha : Answers b env known) {element : String} (hk : known element) (thr : K) (j : Nat)
    (lines : List (Str × Tmp K)) {f : Emission K → SMap Str (Factor K) → Str → Tmp K → Outcome (Option K)}
    (hf : ∀ em fs t p, Good b (f em fs t p)) :
    ∀ ems : List (Emission K), Good b (emissionLoop env element thr j lines f ems)
  | [] => trivial
  | em :: rest => by
    unfold emissionLoop
    split_ifs
    · exact emissionLoop_good ha hk thr j lines hf rest
    · refine (ha.excite _ hk _ _).bind fun fs _ => ?_
      refine (lineLoop_good (hf em fs) _ lines).bind fun a _ => ?_
      exact (emissionLoop_good ha hk thr j lines hf rest).bind fun r _ => trivial

theorem secondaryLoop_good (ha : Answers b env known) (hI : Integrals b env) {rd : RayData K} (hr : RayShape env o rd)
    (ho : o.secondary > 0) {element : String} (hk : known element) (thr : K) (i : Nat) (hi : i < env.layers.length)
    (l : LayerData K) (muIn lw frac : K) (lines : List (Str × Tmp K)) : ∀ (n j : Nat), j + n ≤ env.layers.length →
      Good b (secondaryLoop env rd element thr i l muIn lw frac lines j n)
  | 0, _, _ => trivial
  | n + 1, j, h => by
    unfold secondaryLoop
    refine (vget_good (by rw [hr.emissions ho]; omega)).bind fun ems _ => ?_
    refine (vget_good (by rw [hr.incident]; omega)).bind fun p _ => ?_
    refine (vget_good (by omega)).bind fun l2 _ => ?_
    refine Good.bind ?_ fun a _ => ?_
    · split_ifs
      · exact emissionLoop_good ha hk thr j lines (fun em fs t p => intra_good hI _ _ _ _ _ _ _) ems
      · trivial
      · exact emissionLoop_good ha hk thr j lines
          (fun em fs t q => inter_good ha hI hr i j hi (by omega) _ _ _ _ _ _ _ _) ems
    · exact (secondaryLoop_good ha hI hr ho hk thr i hi l muIn lw frac lines n (j + 1) (by omega)).bind fun r _ => trivial

theorem upperLoop_good (ha : Answers b env known) (e : K) : ∀ (n : Nat) (d : K), n ≤ env.layers.length →
    Good b (upperLoop env e n d)
  | 0, _, _ => trivial
  | n + 1, d, h => by
    unfold upperLoop
    exact (ha.transmission n (by omega) e).bind fun t _ => upperLoop_good ha e n _ (by omega)

theorem attenuatorLoop_good (e : K) : ∀ (as : List (K → Outcome K)) (d : K), (∀ a ∈ as, Good b (a e)) →
    Good b (attenuatorLoop e as d)
  | [], _, _ => trivial
  | a :: rest, d, h => by
    unfold attenuatorLoop
    exact (h a (by simp)).bind fun t _ => attenuatorLoop_good e rest _ (fun a ha => h a (by simp [ha]))

theorem efficiency_good (ha : Answers b env known) (i : Nat) (hi : i < env.layers.length) (g e : K) :
    Good b (efficiency env i g e) := by
  unfold efficiency
  refine (upperLoop_good ha e i 1 (by omega)).bind fun d _ => ?_
  refine (attenuatorLoop_good e _ d (fun a h => ha.attenuators a h e)).bind fun d _ => ?_
  dsimp only
  split_ifs with hd
  · refine (ha.intrinsic hd e).bind fun q _ => ?_
    exact (ha.escape hd e).bind fun _ _ => trivial
  · trivial

theorem openLines_good (ha : Answers b env known) (key family : String) (i : Nat) (hi : i < env.layers.length)
    (g thr : K) : ∀ (fs : List (Str × Factor K)) (res : Result K), Good b (openLines env key family i g thr fs res)
  | [], _ => trivial
  | (t, f) :: rest, res => by
    unfold openLines
    split_ifs
    · exact openLines_good ha key family i hi g thr rest res
    · exact openLines_good ha key family i hi g thr rest res
    · split
      · exact (openLines_good ha key family i hi g thr rest res).bind fun r _ => trivial
      · refine (ha.mu i hi _).bind fun m _ => ?_
        refine (efficiency_good ha i hi g _).bind fun d _ => ?_
        exact (openLines_good ha key family i hi g thr rest _).bind fun r _ => trivial

theorem deposit_good (ha : Answers b env known) (key : String) (i : Nat) (mf : K) : ∀ (ls : List (Str × Tmp K))
    (res : Result K), Good b (deposit env key i mf ls res)
  | [], _ => trivial
  | (t, p) :: rest, res => by
    unfold deposit
    refine Good.bind ?_ fun esc _ => ?_
    · split_ifs with hd
      · exact ha.escape hd _
      · trivial
    · exact deposit_good ha key i mf rest _

theorem cell_good (ha : Answers b env known) (hI : o.secondary > 0 → Integrals b env) {rd : RayData K}
    (hr : RayShape env o rd) (req : Request) (hk : known req.element) (thr : K) (factors : SMap Str (Factor K))
    (i : Nat) (hi : i < env.layers.length) (l : LayerData K) (res : Result K) :
    Good b (cell env o rd req thr factors i l res) := by
  unfold cell
  refine Good.ite (fun _ => trivial) fun h1 => ?_
  refine Good.ite (fun _ => trivial) fun h2 => ?_
  refine (openLines_good ha _ _ i hi _ _ _ _).bind fun r _ => ?_
  refine Good.ite (fun _ => trivial) fun h3 => ?_
  refine (ha.mu i hi _).bind fun m _ => ?_
  refine (vget_good (by rw [hr.incident]; exact hi)).bind fun p _ => ?_
  refine Good.bind ?_ fun cs _ => deposit_good ha _ i _ _ _
  exact Good.ite (fun ho => secondaryLoop_good ha (hI ho) hr ho hk thr i hi l _ _ _ _ _ 0 (by simp)) (fun _ => trivial)

theorem cellLoop_good (ha : Answers b env known) (hI : o.secondary > 0 → Integrals b env) {rd : RayData K}
    (hr : RayShape env o rd) (req : Request) (hk : known req.element) (thr : K) (factors : SMap Str (Factor K)) :
    ∀ (ls : List (LayerData K)) (i : Nat) (res : Result K), i + ls.length ≤ env.layers.length →
      Good b (cellLoop env o rd req thr factors i ls res)
  | [], _, _, _ => trivial
  | l :: ls, i, res, h => by
    simp only [List.length_cons] at h
    unfold cellLoop
    refine (cell_good ha hI hr req hk thr factors i (by omega) l res).bind fun r _ => ?_
    exact cellLoop_good ha hI hr req hk thr factors ls (i + 1) r (by omega)

theorem requestLoop_good (ha : Answers b env known) (hI : o.secondary > 0 → Integrals b env) {rd : RayData K}
    (hr : RayShape env o rd) : ∀ (reqs : List Request), (∀ q ∈ reqs, known q.element ∧ (q.family = "" → b = true)) →
      ∀ (n : Nat) (thrs : List K) (res : Result K), Good b (requestLoop env o rd n (reqs.map .ok) thrs res)
  | [], _, _, _, _ => trivial
  | q :: reqs, h, n, thrs, res => by
    obtain ⟨hk, hf⟩ := h q (by simp)
    simp only [List.map_cons, requestLoop, Outcome.ok_bind]
    refine Good.bind ?_ fun x _ => ?_
    · unfold thresholdOf
      refine Good.ite (fun he => hf he) fun _ => ?_
      split
      · trivial
      · exact (ha.threshold _ hk _).bind fun t _ => trivial
    · refine Good.ite (fun _ => ?_) (fun _ => ?_)
      · exact requestLoop_good ha hI hr reqs (fun q hq => h q (by simp [hq])) _ _ _
      · refine (ha.excite _ hk _ _).bind fun fs _ => ?_
        refine (cellLoop_good ha hI hr q hk _ fs _ 0 res (by simp)).bind fun r _ => ?_
        exact requestLoop_good ha hI hr reqs (fun q hq => h q (by simp [hq])) _ _ _

theorem rayLoop_good (ha : Answers b env known) (hI : o.secondary > 0 → Integrals b env) (reqs : List Request)
    (hq : ∀ q ∈ reqs, known q.element ∧ (q.family = "" → b = true)) : ∀ (rays : List (K × K)) (thrs : List K) (m : K) (res : Result K),
      Good b (rayLoop env o (reqs.map .ok) rays thrs m res)
  | [], _, _, _ => trivial
  | (e, w) :: rays, thrs, m, res => by
    unfold rayLoop
    dsimp only
    split_ifs
    · exact rayLoop_good ha hI reqs hq rays _ _ _
    · refine (rayData_good ha _ e w).bind fun rd hrd => ?_
      refine (requestLoop_good ha hI (rayData_shape ha _ e w rd hrd) reqs hq _ _ _).bind fun x _ => ?_
      exact rayLoop_good ha hI reqs hq rays _ _ _

theorem calculate_good (ha : Answers b env known) (hI : o.secondary > 0 → Integrals b env) (reqs : List Request)
    (hq : ∀ q ∈ reqs, known q.element ∧ (q.family = "" → b = true)) (rays : List (K × K)) :
    Good b (calculate env o (reqs.map .ok) rays) := by
  unfold calculate
  exact (rayLoop_good ha hI reqs hq _ _ _ _).bind fun r _ => trivial

end calculation

/-! ### The integrals -/

theorem AS_good (x : ℝ) : Good true (MathFn.AS_5_1_53 x) := by
  unfold MathFn.AS_5_1_53
  split_ifs <;> trivial

theorem CF_good (x : ℝ) : Good true (MathFn.deBoerCF x) := by
  unfold MathFn.deBoerCF
  split_ifs <;> trivial

theorem E1_good (x : ℝ) : Good true (MathFn.E1 x) := by
  unfold MathFn.E1
  refine Good.ite (fun _ => rfl) fun _ => ?_
  refine Good.ite (fun _ => trivial) fun _ => ?_
  refine Good.ite (fun _ => ?_) fun _ => ?_
  · exact (AS_good x).bind fun _ _ => trivial
  · exact (CF_good x).bind fun _ _ => trivial

theorem D_good (x : ℝ) : Good true (MathFn.deBoerD x) := by
  unfold MathFn.deBoerD
  refine Good.ite (fun _ => ?_) fun _ => ?_
  · exact (E1_good x).bind fun _ _ => trivial
  · refine Good.ite (fun _ => ?_) fun _ => ?_
    · exact (CF_good x).bind fun _ _ => trivial
    · refine (AS_good x).bind fun _ _ => ?_
      exact Good.ite (fun _ => trivial) fun _ => trivial

theorem finiteOr_good (r : Option ℝ) : Good true (MathFn.finiteOr r) := by
  cases r <;> trivial

theorem checkResult_good (r : Option ℝ) : Good true (MathFn.checkResult r) := by
  cases r with
  | none => rfl
  | some v =>
    unfold MathFn.checkResult
    exact Good.ite (fun _ => rfl) fun _ => trivial

theorem deBoerL0_good (a1 a2 a3 a4 a5 : ℝ) : Good true (MathFn.deBoerL0 a1 a2 a3 a4 a5) := by
  unfold MathFn.deBoerL0
  refine Good.ite (fun _ => rfl) fun _ => ?_
  refine Good.ite (fun _ => trivial) fun _ => ?_
  refine Good.ite (fun _ => trivial) fun _ => ?_
  refine (D_good _).bind fun _ _ => ?_
  refine (D_good _).bind fun _ _ => ?_
  refine (D_good _).bind fun _ _ => ?_
  exact checkResult_good _

theorem deBoerV_good (p q d1 d2 m1 m2 mb : ℝ) : Good true (MathFn.deBoerV p q d1 d2 m1 m2 mb) := by
  unfold MathFn.deBoerV
  refine Good.ite (fun _ => finiteOr_good _) fun _ => ?_
  refine (finiteOr_good _).bind fun _ _ => ?_
  refine (D_good _).bind fun _ _ => ?_
  refine (finiteOr_good _).bind fun _ _ => ?_
  refine (finiteOr_good _).bind fun _ _ => ?_
  refine (finiteOr_good _).bind fun _ _ => ?_
  refine (D_good _).bind fun _ _ => ?_
  refine (finiteOr_good _).bind fun _ _ => ?_
  refine (finiteOr_good _).bind fun _ _ => ?_
  refine (D_good _).bind fun _ _ => ?_
  refine (finiteOr_good _).bind fun _ _ => ?_
  trivial

theorem deBoerX_good (p q d1 d2 m1 m2 mb : ℝ) : Good true (MathFn.deBoerX p q d1 d2 m1 m2 mb) := by
  unfold MathFn.deBoerX
  refine (deBoerV_good _ _ _ _ _ _ _).bind fun _ _ => ?_
  refine (deBoerV_good _ _ _ _ _ _ _).bind fun _ _ => ?_
  refine (deBoerV_good _ _ _ _ _ _ _).bind fun _ _ => ?_
  refine (deBoerV_good _ _ _ _ _ _ _).bind fun _ _ => ?_
  trivial

/-! ### The library -/

section api

variable {R : Type} {pf : String → Outcome (SMap String ℝ)} {fuel : Nat} {L : Library ℝ} {b : Bool}

/-- The queries on the elements of the library return (or throw, when `b` is true). -/
structure Responds (b : Bool) (pf : String → Outcome (SMap String ℝ)) (L : Library ℝ) : Prop where
  parser : Library.ParserOK pf
  inv : Library.Inv L
  blank : ∀ e ∈ L.elements, ' ' ∉ e.name.toList
  mu : ∀ e ∈ L.elements, ∀ x, Good b (e.data.getMu x)
  factors : ∀ e ∈ L.elements, ∀ x w, Good b (e.data.getFactors x w)
  families : ∀ e ∈ L.elements, ∀ x, Good b (Library.familiesOf e (e.data.getExcitedShells x))

theorem getElement_good (hi : Library.Inv L) (n : String) (hn : b = true ∨ ∃ e, L.getElement n = .ok e) :
    Good b (L.getElement n) := by
  rcases hn with rfl | ⟨e, he⟩
  · unfold Library.getElement
    refine Good.ite (fun h => ?_) (fun _ => rfl)
    split
    · rename_i i hf
      have h1 := (hi n i).1 hf
      unfold Library.getElementNames at h1
      have hlt := (List.getElem?_eq_some_iff.1 h1).1
      simp only [List.length_map] at hlt
      exact vget_good hlt
    · rename_i hf
      unfold Library.isElementNameDefined at h
      split_ifs at h
      simp [SMap.mem, hf] at h
  · rw [he]; trivial

/-- The name of an element of the library. -/
def Known (L : Library ℝ) (n : String) : Prop := ∃ e, L.getElement n = .ok e

theorem known_of_mass {n : String} {x : ℝ} (h : L.massOf n = some x) : Known L n := by
  obtain ⟨e, he, -⟩ := Library.massOf_getElement L n x h
  exact ⟨e, he⟩

theorem mass_of_known {n : String} (h : Known L n) : ∃ x, L.massOf n = some x := by
  obtain ⟨e, he⟩ := h
  exact ⟨e.mass, by unfold Library.massOf; rw [he]⟩

theorem comp_known (hL : Responds b pf L) {n : String} {m : SMap String ℝ} (h : L.comp pf fuel n = .ok m) :
    ∀ e ∈ m, Known L e.1 := fun e he => by
  obtain ⟨x, hx⟩ := Library.comp_keys pf hL.parser L hL.inv fuel n m h e he
  exact known_of_mass hx

theorem normalise_mem {c : SMap String ℝ} {e : String × ℝ} (h : e ∈ Library.normalise c) : ∃ x, (e.1, x) ∈ c := by
  obtain ⟨q, hq, rfl⟩ := List.mem_map.1 h
  exact ⟨q.2, hq⟩

theorem mixLoop_known {f : String → Outcome (SMap String ℝ)} {items : List (String × ℝ)} {r : SMap String ℝ}
    (hf : ∀ n m, f n = .ok m → ∀ e ∈ m, Known L e.1) (h : Library.mixLoop f items [] = .ok r) : ∀ e ∈ r, Known L e.1 := by
  rcases Library.mixLoop_cases _ _ _ _ h with ⟨rfl, _⟩ | ⟨G, hG, rfl⟩
  · simp
  · exact Library.mixFold_keys (fun n => Known L n) G _ [] (fun e he => hf e.1 (G e.1) (hG e he).1) (by simp)

theorem compWith_known (hL : Responds b pf L) (extra : List (Material ℝ)) : ∀ (fuel : Nat) (n : String)
    (m : SMap String ℝ), L.compWith pf extra fuel n = .ok m → ∀ e ∈ m, Known L e.1
  | 0, n, m, h => by simp [Library.compWith] at h
  | fuel + 1, n, m, h => by
    unfold Library.compWith at h
    obtain ⟨r, hr, h⟩ := Outcome.bind_eq_ok.mp h
    split_ifs at h with h1 h2
    · simp only [Outcome.pure_eq, Outcome.ok.injEq] at h
      subst h
      have : L.comp pf 1 n = .ok r := by
        unfold Library.comp
        rw [hr, Outcome.ok_bind, if_pos h1]; rfl
      exact comp_known hL this
    · exact comp_known hL h
    · obtain ⟨t, ht, h⟩ := Outcome.bind_eq_ok.mp h
      split_ifs at h with h3
      obtain ⟨c, hc, h⟩ := Outcome.bind_eq_ok.mp h
      simp only [Outcome.pure_eq, Outcome.ok.injEq] at h
      subst h
      intro e he
      obtain ⟨x, hx⟩ := normalise_mem he
      exact mixLoop_known (fun n m hm => compWith_known hL extra fuel n m hm) hc (e.1, x) hx

theorem compMap_known (hL : Responds b pf L) (extra : List (Material ℝ)) {fuel : Nat} {c m : SMap String ℝ}
    (h : L.compMap pf extra fuel c = .ok m) : ∀ e ∈ m, Known L e.1 := by
  unfold Library.compMap at h
  obtain ⟨t, ht, h⟩ := Outcome.bind_eq_ok.mp h
  simp only [Outcome.pure_eq, Outcome.ok.injEq] at h
  subst h
  intro e he
  obtain ⟨x, hx⟩ := normalise_mem he
  exact mixLoop_known (fun n m hm => compWith_known hL extra fuel n m hm) ht (e.1, x) hx

theorem layerComposition_known (hL : Responds b pf L) (c : Config ℝ R) (l : Layer ℝ) {m : SMap String ℝ}
    (h : layerComposition pf fuel L c l = .ok m) : ∀ e ∈ m, Known L e.1 := by
  unfold layerComposition at h
  split_ifs at h
  · exact compMap_known hL _ h
  · exact compWith_known hL _ _ _ _ h

theorem mixSum_good (hL : Responds b pf L) (t x : ℝ) : ∀ (items : List (String × ℝ)) (acc : Mix ℝ),
    (∀ e ∈ items, Known L e.1) → Good b (L.mixSum t x items acc)
  | [], _, _ => trivial
  | (n, w) :: rest, acc, h => by
    obtain ⟨e, he⟩ := h (n, w) (by simp)
    obtain ⟨i, hi, hv⟩ := Library.getElement_dict L n e he
    unfold Library.mixSum
    rw [hi]
    dsimp only
    rw [hv, Outcome.ok_bind]
    refine (hL.mu e (Library.getElement_mem L n e he) x).bind fun m _ => ?_
    exact mixSum_good hL t x rest _ (fun e he => h e (by simp [he]))

theorem amounts_known (hL : Responds b pf L) {input : SMap String ℝ} {isC : Bool} {a : SMap String ℝ × ℝ}
    (hi : isC = true → ∀ e ∈ input, Known L e.1) (h : L.amounts pf fuel input isC = .ok a) : ∀ e ∈ a.1, Known L e.1 := by
  unfold Library.amounts at h
  split_ifs at h with hc
  · simp only [Outcome.ok.injEq] at h
    subst h
    exact hi hc
  · obtain ⟨r, hr, h⟩ := Outcome.bind_eq_ok.mp h
    split_ifs at h
    simp only [Outcome.pure_eq, Outcome.ok.injEq] at h
    subst h
    obtain ⟨G, hG, rfl⟩ := Library.amountsLoop_ok pf L fuel _ _ _ _ hr
    exact Library.mixFold_keys (fun n => Known L n) G _ [] (fun e he => comp_known hL (hG e he).2.1) (by simp)

theorem mixMu_good (hL : Responds b pf L) {input : SMap String ℝ} {isC : Bool}
    (hi : isC = true → ∀ e ∈ input, Known L e.1) (ha : Good b (L.amounts pf fuel input isC)) (x : ℝ) :
    Good b (L.mixMu pf fuel input x isC) := by
  unfold Library.mixMu
  refine ha.bind fun a h => ?_
  exact (mixSum_good hL _ _ _ _ (amounts_known hL hi h)).bind fun s _ => trivial

theorem mixList_good (hL : Responds b pf L) (a : SMap String ℝ × ℝ) (ha : ∀ e ∈ a.1, Known L e.1) : ∀ es : List ℝ,
    Good b (L.mixList a es)
  | [] => trivial
  | x :: es => by
    unfold Library.mixList
    refine (mixSum_good hL _ _ _ _ ha).bind fun s _ => ?_
    exact (mixList_good hL a ha es).bind fun r _ => trivial

theorem mixMus_good (hL : Responds b pf L) {input : SMap String ℝ} {isC : Bool}
    (hi : isC = true → ∀ e ∈ input, Known L e.1) (ha : Good b (L.amounts pf fuel input isC)) (es : List ℝ) :
    Good b (L.mixMus pf fuel input es isC) := by
  unfold Library.mixMus
  exact ha.bind fun a h => mixList_good hL a (amounts_known hL hi h) es

theorem mixList_length (a : SMap String ℝ × ℝ) : ∀ (es : List ℝ) (r : List (Mix ℝ)), L.mixList a es = .ok r →
    r.length = es.length
  | [], r, h => by simp only [Library.mixList, Outcome.ok.injEq] at h; subst h; rfl
  | x :: es, r, h => by
    simp only [Library.mixList, Outcome.bind_eq_ok, Outcome.pure_eq, Outcome.ok.injEq] at h
    obtain ⟨s, -, r', hr', rfl⟩ := h
    simp [mixList_length a es r' hr']

theorem mixMus_length {input : SMap String ℝ} {isC : Bool} {es : List ℝ} {r : List (Mix ℝ)}
    (h : L.mixMus pf fuel input es isC = .ok r) : r.length = es.length := by
  unfold Library.mixMus at h
  obtain ⟨a, -, h⟩ := Outcome.bind_eq_ok.mp h
  exact mixList_length a es r h

/-! ### The configuration -/

/-- What is needed of the configuration: compositions of the layers, coefficients of filters, attenuators and detector,
positive thicknesses and a detector on the side of the sample, a reference layer if the geometric efficiency is used. -/
structure Ready (b : Bool) (pf : String → Outcome (SMap String ℝ)) (fuel : Nat) (L : Library ℝ) (c : Config ℝ R)
    (useGeometric : Bool) : Prop where
  sample : ∀ l ∈ c.sample, Good b (layerComposition pf fuel L c l)
  sample_nonempty : ∀ l ∈ c.sample, layerComposition pf fuel L c l = .ok [] → b = true
  outer : ∀ l ∈ c.beamFilters ++ c.attenuators, Good b (layerMu pf fuel L c l 1 [])
  thick : ∀ l ∈ c.sample ++ (c.beamFilters ++ c.attenuators), b = true ∨ 0 < l.density * l.thickness
  angle : b = true ∨ 0 < c.alphaOut ∧ c.alphaOut < 180
  detectorMu : c.detector.layer.hasMaterial = true ∨ 0 < c.detector.layer.materialName.length →
    0 < c.detector.layer.density → 0 < c.detector.layer.thickness → Good b (detectorMu pf fuel L c.detector.layer 1)
  detector : c.detector.layer.hasMaterial = true ∨ 0 < c.detector.layer.materialName.length →
    Good b (do let m ← detectorComposition pf fuel L c.detector.params; L.mixMu pf fuel m 1 false)
  reference : useGeometric = true → ∃ r : Int, c.referenceLayer = some r ∧ 0 ≤ r ∧ r < c.sample.length

variable {c : Config ℝ R} {g : Bool}

theorem amounts_true_good (m : SMap String ℝ) : Good b (L.amounts pf fuel m true) := by
  unfold Library.amounts
  rw [if_pos rfl]; trivial

theorem layerMu_good (hL : Responds b pf L) (l : Layer ℝ) (m : SMap String ℝ) (hm : ∀ e ∈ m, Known L e.1)
    (h0 : m = [] → Good b (layerMu pf fuel L c l 1 [])) (x : ℝ) : Good b (layerMu pf fuel L c l x m) := by
  unfold layerMu
  refine Good.ite (fun _ => mixMu_good hL (fun _ => hm) (amounts_true_good m) x) fun hlen => ?_
  have hm0 : m = [] := List.length_eq_zero_iff.mp (by omega)
  have h1 := h0 hm0
  unfold layerMu at h1
  rw [if_neg (by simp)] at h1
  refine h1.left.bind fun q hq => ?_
  rw [hq, Outcome.ok_bind] at h1
  exact mixMu_good hL (by simp) h1.left x

theorem layerMus_good (hL : Responds b pf L) (l : Layer ℝ) (m : SMap String ℝ) (hm : ∀ e ∈ m, Known L e.1)
    (h0 : m = [] → Good b (layerMu pf fuel L c l 1 [])) (es : List ℝ) : Good b (layerMus pf fuel L c l es m) := by
  unfold layerMus
  refine Good.ite (fun _ => mixMus_good hL (fun _ => hm) (amounts_true_good m) es) fun hlen => ?_
  have hm0 : m = [] := List.length_eq_zero_iff.mp (by omega)
  have h1 := h0 hm0
  unfold layerMu at h1
  rw [if_neg (by simp)] at h1
  refine h1.left.bind fun q hq => ?_
  rw [hq, Outcome.ok_bind] at h1
  exact mixMus_good hL (by simp) h1.left es

theorem layerMus_length {l : Layer ℝ} {m : SMap String ℝ} {es : List ℝ} {r : List (Mix ℝ)}
    (h : layerMus pf fuel L c l es m = .ok r) : r.length = es.length := by
  unfold layerMus at h
  split_ifs at h
  · exact mixMus_length h
  · obtain ⟨q, -, h⟩ := Outcome.bind_eq_ok.mp h
    exact mixMus_length h

theorem layerTransmissions_good (hL : Responds b pf L) (l : Layer ℝ) (m : SMap String ℝ) (hm : ∀ e ∈ m, Known L e.1)
    (h0 : m = [] → Good b (layerMu pf fuel L c l 1 [])) (ht : b = true ∨ 0 < l.density * l.thickness) (angle : ℝ)
    (hang : b = true ∨ 0 < angle ∧ angle < 180) (es : List ℝ) :
    Good b (layerTransmissions pf fuel L c l es angle m) := by
  unfold layerTransmissions
  refine Good.bind ?_ fun _ _ => trivial
  unfold Layer.getTransmissions
  refine Good.ite (fun hn => ?_) fun _ => ?_
  · rcases ht with rfl | ht
    · rfl
    · rcases hang with rfl | ⟨h1, h2⟩
      · rfl
      · exfalso
        unfold Layer.massThickness at hn
        have hsin : 0 < Real.sin (angle * Real.pi / 180) := by
          apply Real.sin_pos_of_pos_of_lt_pi
          · have := Real.pi_pos; positivity
          · have := Real.pi_pos
            rw [div_lt_iff₀ (by norm_num)]
            nlinarith
        by_cases h3 : angle = 90
        · rw [if_pos h3] at hn
          simp only [Layer.nonPositive, decide_eq_true_eq] at hn
          linarith
        · simp only [if_neg h3, if_neg (not_lt.mpr h1.le), if_neg hsin.ne', Layer.nonPositive, decide_eq_true_eq] at hn
          have : 0 < l.density * l.thickness / Real.sin (angle * Real.pi / 180) := by positivity
          linarith
  · refine Good.bind ?_ fun _ _ => trivial
    exact (layerMus_good hL l m hm h0 es).bind fun _ _ => trivial

theorem layerTransmission_good (hL : Responds b pf L) (l : Layer ℝ) (m : SMap String ℝ) (hm : ∀ e ∈ m, Known L e.1)
    (h0 : m = [] → Good b (layerMu pf fuel L c l 1 [])) (ht : b = true ∨ 0 < l.density * l.thickness) (angle : ℝ)
    (hang : b = true ∨ 0 < angle ∧ angle < 180) (e : ℝ) :
    Good b (layerTransmission pf fuel L c l e angle m) := by
  unfold layerTransmission
  refine (layerTransmissions_good hL l m hm h0 ht angle hang [e]).bind fun ts hts => ?_
  apply vget_good
  unfold layerTransmissions Layer.getTransmissions at hts
  obtain ⟨a, ha, h⟩ := Outcome.bind_eq_ok.mp hts
  simp only [Outcome.pure_eq, Outcome.ok.injEq] at h
  subst h
  dsimp only at ha
  split_ifs at ha
  obtain ⟨q, hq, h⟩ := Outcome.bind_eq_ok.mp ha
  simp only [Outcome.pure_eq, Outcome.ok.injEq] at h
  subst h
  obtain ⟨r, hr, h⟩ := Outcome.bind_eq_ok.mp hq
  simp only [Outcome.pure_eq, Outcome.ok.injEq] at h
  subst h
  simp [layerMus_length hr]

theorem familiesOf_names (e : LibElement ℝ) : ∀ (shells : List Str) (r : List (String × ℝ)),
    Library.familiesOf e shells = .ok r → ∀ f ∈ r, ∃ s : Str, f.1 = e.name ++ " " ++ String.ofList s
  | [], r, h => by simp only [Library.familiesOf, Outcome.ok.injEq] at h; subst h; simp
  | s :: rest, r, h => by
    unfold Library.familiesOf at h
    split_ifs at h with h1
    · split at h
      · cases h
      · obtain ⟨q, hq, h⟩ := Outcome.bind_eq_ok.mp h
        have ih := familiesOf_names e rest q hq
        split_ifs at h
        · split at h
          · cases h
          · simp only [Outcome.pure_eq, Outcome.ok.injEq] at h
            subst h
            intro f hf
            rcases List.mem_cons.mp hf with rfl | hf
            · exact ⟨s, rfl⟩
            · exact ih f hf
        · simp only [Outcome.pure_eq, Outcome.ok.injEq] at h
          subst h
          exact ih
    · exact familiesOf_names e rest r h

theorem familyParts_name (n : String) (s : Str) (hn : ' ' ∉ n.toList) :
    String.ofList (familyParts (n ++ " " ++ String.ofList s).toList).1 = n := by
  have h1 : (n ++ " " ++ String.ofList s).toList = n.toList ++ ' ' :: s := by simp
  rw [h1]
  have h2 : ∀ l : Str, ' ' ∉ l → (l ++ ' ' :: s).dropWhile (fun c => c ≠ ' ') = ' ' :: s := by
    intro l hl
    induction l with
    | nil => simp
    | cons a l ih =>
      simp only [List.mem_cons, not_or] at hl
      rw [List.cons_append, List.dropWhile_cons_of_pos (by simpa using Ne.symm hl.1)]
      exact ih hl.2
  have h3 : ∀ l : Str, ' ' ∉ l → (l ++ ' ' :: s).takeWhile (fun c => c ≠ ' ') = l := by
    intro l hl
    induction l with
    | nil => simp
    | cons a l ih =>
      simp only [List.mem_cons, not_or] at hl
      rw [List.cons_append, List.takeWhile_cons_of_pos (by simpa using Ne.symm hl.1), ih hl.2]
  unfold familyParts
  rw [h2 _ hn]
  dsimp only
  rw [h3 _ hn]
  simp

theorem familiesLoop_names (hL : Responds b pf L) (x : ℝ) : ∀ (names : List String) (r : List (String × ℝ)),
    L.familiesLoop names x = .ok r → ∀ f ∈ r, Known L (String.ofList (familyParts f.1.toList).1)
  | [], r, h => by simp only [Library.familiesLoop, Outcome.ok.injEq] at h; subst h; simp
  | n :: rest, r, h => by
    unfold Library.familiesLoop at h
    obtain ⟨e, he, h⟩ := Outcome.bind_eq_ok.mp h
    obtain ⟨q, hq, h⟩ := Outcome.bind_eq_ok.mp h
    obtain ⟨r', hr, h⟩ := Outcome.bind_eq_ok.mp h
    simp only [Outcome.pure_eq, Outcome.ok.injEq] at h
    subst h
    intro f hf
    rcases List.mem_append.mp hf with hf | hf
    · obtain ⟨s, hs⟩ := familiesOf_names e _ _ hq f hf
      rw [hs, familyParts_name _ _ (hL.blank e (Library.getElement_mem L n e he)),
        Library.getElement_name L hL.inv n e he]
      exact ⟨e, he⟩
    · exact familiesLoop_names hL x rest r' hr f hf

theorem libFamilies_good (hL : Responds b pf L) (x : ℝ) : ∀ (names : List String), (∀ n ∈ names, Known L n) →
    Good b (L.familiesLoop names x)
  | [], _ => trivial
  | n :: rest, h => by
    obtain ⟨e, he⟩ := h n (by simp)
    unfold Library.familiesLoop
    rw [he, Outcome.ok_bind]
    refine (hL.families e (Library.getElement_mem L n e he) x).bind fun f _ => ?_
    exact (libFamilies_good hL x rest (fun n hn => h n (by simp [hn]))).bind fun r _ => trivial

theorem known_keys {m : SMap String ℝ} (hm : ∀ e ∈ m, Known L e.1) : ∀ n ∈ m.keys, Known L n := by
  intro n hn
  obtain ⟨e, he, rfl⟩ := List.mem_map.1 hn
  exact hm e he

theorem escapeLines_good (hL : Responds b pf L) (key : EscapeKey ℝ)
    (ha : Good b (L.amounts pf fuel key.composition false)) (x mi : ℝ) (el : String) :
    ∀ (lines : List (Str × Factor ℝ)) (acc : SMap String (Line ℝ)), Good b (L.escapeLines pf fuel key x mi el lines acc)
  | [], _ => trivial
  | (t, f) :: rest, acc => by
    unfold Library.escapeLines
    refine (mixMu_good hL (by simp) ha f.energy).bind fun mf _ => ?_
    exact escapeLines_good hL key ha x mi el rest _

theorem escapeElements_good (hL : Responds b pf L) (key : EscapeKey ℝ)
    (ha : Good b (L.amounts pf fuel key.composition false)) (x mi : ℝ) :
    ∀ (items : List (String × ℝ)) (acc : SMap String (Line ℝ)), (∀ e ∈ items, Known L e.1) →
      Good b (L.escapeElements pf fuel key x mi items acc)
  | [], _, _ => trivial
  | (n, w) :: rest, acc, h => by
    obtain ⟨e, he⟩ := h (n, w) (by simp)
    unfold Library.escapeElements
    rw [he, Outcome.ok_bind]
    refine (hL.factors e (Library.getElement_mem L n e he) x w).bind fun f _ => ?_
    refine (escapeLines_good hL key ha x mi n f acc).bind fun a _ => ?_
    exact escapeElements_good hL key ha x mi rest a (fun e he => h e (by simp [he]))

theorem detectorComposition_known (hL : Responds b pf L) (p : Detector.EscapeParams ℝ) {m : SMap String ℝ}
    (h : detectorComposition pf fuel L p = .ok m) : ∀ e ∈ m, Known L e.1 := by
  unfold detectorComposition at h
  split_ifs at h
  · exact compMap_known hL _ h
  · exact comp_known hL h

theorem detectorEscape_good (hL : Responds b pf L) (p : Detector.EscapeParams ℝ)
    (h : Good b (do let m ← detectorComposition pf fuel L p; L.mixMu pf fuel m 1 false)) (x : ℝ) :
    Good b (detectorEscape pf fuel L p x) := by
  unfold detectorEscape
  refine h.left.bind fun m hm => ?_
  rw [hm, Outcome.ok_bind] at h
  have ha : Good b (L.amounts pf fuel m false) := h.left
  have hcomp : ∀ key : EscapeKey ℝ, key.composition = m → Good b (L.computeEscape pf fuel key x) := by
    intro key hk
    unfold Library.computeEscape
    rw [hk]
    refine (mixMu_good hL (by simp) ha x).bind fun mi _ => ?_
    exact escapeElements_good hL key (by rw [hk]; exact ha) x _ m [] (detectorComposition_known hL p hm)
  unfold Library.getEscape
  refine Good.ite (fun _ => ?_) fun _ => hcomp _ rfl
  split
  · trivial
  · exact hcomp _ rfl

theorem nameMu_good (hL : Responds b pf L) (n : String) (h : Good b (L.nameMu pf fuel n 1)) (x : ℝ) :
    Good b (L.nameMu pf fuel n x) := by
  unfold Library.nameMu at h ⊢
  split_ifs at h ⊢ with h1
  · refine h.left.bind fun e he => ?_
    exact (hL.mu e (Library.getElement_mem L n e he) x).bind fun _ _ => trivial
  · refine h.left.bind fun m hm => ?_
    rw [hm, Outcome.ok_bind] at h
    split_ifs at h ⊢
    · exact h
    · exact mixMu_good hL (by simp) h.left x

theorem detectorMu_good (hL : Responds b pf L) (d : Layer ℝ) (h : Good b (detectorMu pf fuel L d 1)) (x : ℝ) :
    Good b (detectorMu pf fuel L d x) := by
  unfold detectorMu at h ⊢
  refine Good.bind ?_ fun _ _ => trivial
  have h := h.left
  split_ifs at h ⊢
  · exact mixMu_good hL (by simp) h.left x
  · exact nameMu_good hL _ h x

variable {srt : List (String × ℝ) → List (String × ℝ)} {comps : List (SMap String ℝ)} {geoms : List ℝ}

theorem layers_length (hc : compositions pf fuel L c c.sample = .ok comps)
    (hg : geometricLoop c g 0 c.sample = .ok geoms) :
    (envOf pf fuel L srt c comps geoms).layers.length = c.sample.length := by
  show (layerData c.sample comps geoms).length = _
  unfold layerData
  rw [List.length_zipWith, List.length_zip, (compositions_get _ _ hc).1, (geometric_get _ _ _ hg).1]
  simp

/-- The environment built from such a configuration answers. -/
theorem answers (hL : Responds b pf L) (hr : Ready b pf fuel L c g) (hs : Library.SortsByEnergy srt)
    (hc : compositions pf fuel L c c.sample = .ok comps) (hg : geometricLoop c g 0 c.sample = .ok geoms) :
    Answers b (envOf pf fuel L srt c comps geoms) (fun n => b = true ∨ Known L n) := by
  have hlen := layers_length (srt := srt) hc hg
  have hlayer : ∀ i, i < c.sample.length → ∃ l m, vget c.sample i = .ok l ∧ vget comps i = .ok m ∧ l ∈ c.sample ∧
      (∀ e ∈ m, Known L e.1) ∧ (m = [] → Good b (layerMu pf fuel L c l 1 [])) := by
    intro i hi
    obtain ⟨m, h1, h2⟩ := (compositions_get _ _ hc).2 i c.sample[i] (by simp)
    refine ⟨_, m, vget_lt _ _ hi, vget_ok.mpr h1, List.getElem_mem hi, layerComposition_known hL c _ h2, ?_⟩
    rintro rfl
    have hb := hr.sample_nonempty _ (List.getElem_mem hi) h2
    subst hb
    unfold layerMu
    rw [if_neg (by simp), h2, Outcome.ok_bind]
    unfold Library.mixMu Library.amounts Library.amountsLoop
    simp [Good]
  refine ⟨?_, ?_, ?_, ?_, ?_, ?_, ?_, ?_, ?_, ?_, ?_⟩
  · intro i hi e
    rw [hlen] at hi
    obtain ⟨l, m, h1, h2, -, h3, h4⟩ := hlayer i hi
    show Good b (do
      let l ← vget c.sample i
      let m ← vget comps i
      let r ← layerMu pf fuel L c l e m
      return r.total)
    rw [h1, h2]
    exact (layerMu_good hL l m h3 h4 e).bind fun _ _ => trivial
  · intro i hi es
    rw [hlen] at hi
    obtain ⟨l, m, h1, h2, -, h3, h4⟩ := hlayer i hi
    show Good b (do
      let l ← vget c.sample i
      let m ← vget comps i
      layerMus pf fuel L c l es m)
    rw [h1, h2]
    exact layerMus_good hL l m h3 h4 es
  · intro i es ms h
    obtain ⟨l, -, h⟩ := Outcome.bind_eq_ok.mp h
    obtain ⟨m, -, h⟩ := Outcome.bind_eq_ok.mp h
    exact layerMus_length h
  · intro i hi e
    rw [hlen] at hi
    obtain ⟨l, m, h1, h2, hl, h3, h4⟩ := hlayer i hi
    show Good b (do
      let l ← vget c.sample i
      let m ← vget comps i
      layerFamilies pf fuel L srt c l e m)
    rw [h1, h2]
    show Good b (layerFamilies pf fuel L srt c l e m)
    unfold layerFamilies Library.peakFamilies
    refine Good.ite (fun _ => ?_) fun _ => ?_
    · exact (libFamilies_good hL e _ (known_keys h3)).bind fun _ _ => trivial
    · refine (hr.sample l hl).bind fun m' hm' => ?_
      exact (libFamilies_good hL e _ (known_keys (layerComposition_known hL c l hm'))).bind fun _ _ => trivial
  · intro i e fam h f hf
    obtain ⟨l, -, h⟩ := Outcome.bind_eq_ok.mp h
    obtain ⟨m, -, h⟩ := Outcome.bind_eq_ok.mp h
    right
    have key : ∀ names, L.peakFamilies srt names e = .ok fam → Known L (String.ofList (familyParts f.1.toList).1) := by
      intro names h
      unfold Library.peakFamilies at h
      obtain ⟨r, hr', h⟩ := Outcome.bind_eq_ok.mp h
      simp only [Outcome.pure_eq, Outcome.ok.injEq] at h
      subst h
      exact familiesLoop_names hL e names r hr' f ((hs r).1.mem_iff.mp hf)
    unfold layerFamilies at h
    split_ifs at h
    · exact key _ h
    · obtain ⟨m', -, h⟩ := Outcome.bind_eq_ok.mp h
      exact key _ h
  · intro el hk e w
    show Good b (do let x ← L.getElement el; x.data.getFactors e w)
    refine (getElement_good hL.inv el hk).bind fun x hx => ?_
    exact hL.factors x (Library.getElement_mem L el x hx) e w
  · intro el hk f
    show Good b (Xrf.getEnergyThreshold L el f)
    unfold Xrf.getEnergyThreshold
    exact (getElement_good hL.inv el hk).bind fun x _ => trivial
  · intro j hj e
    rw [hlen] at hj
    obtain ⟨l, m, h1, h2, hl, h3, h4⟩ := hlayer j hj
    show Good b (do
      let l ← vget c.sample j
      let m ← vget comps j
      layerTransmission pf fuel L c l e c.alphaOut m)
    rw [h1, h2]
    exact layerTransmission_good hL l m h3 h4 (hr.thick l (by simp [hl])) _ hr.angle e
  · intro a ha e
    obtain ⟨l, hl, rfl⟩ := List.mem_map.1 ha
    exact layerTransmission_good hL l [] (by simp) (fun _ => hr.outer l (by simp [hl])) (hr.thick l (by simp [hl])) 90
      (Or.inr (by norm_num)) e
  · intro hd e
    have hd' : c.detector.layer.hasMaterial = true ∨ 0 < c.detector.layer.materialName.length := by
      simpa [envOf] using hd
    show Good b (detectorIntrinsic pf fuel L c.detector.layer e)
    unfold detectorIntrinsic
    refine Good.ite (fun h => ?_) fun _ => trivial
    refine Good.bind ?_ fun _ _ => trivial
    unfold Layer.getTransmission
    refine (detectorMu_good hL _ (hr.detectorMu hd' h.1 h.2) e).bind fun m _ => ?_
    refine Good.ite (fun hn => ?_) fun _ => trivial
    exfalso
    unfold Layer.massThickness at hn
    rw [if_pos rfl] at hn
    simp only [Layer.nonPositive, decide_eq_true_eq] at hn
    have := mul_pos h.1 h.2
    linarith
  · intro hd e
    have hd' : c.detector.layer.hasMaterial = true ∨ 0 < c.detector.layer.materialName.length := by
      simpa [envOf] using hd
    exact detectorEscape_good hL _ (hr.detector hd') e

theorem compositions_good : ∀ ls : List (Layer ℝ), (∀ l ∈ ls, Good b (layerComposition pf fuel L c l)) →
    Good b (compositions pf fuel L c ls)
  | [], _ => trivial
  | l :: ls, h => by
    unfold compositions
    refine (h l (by simp)).bind fun m _ => ?_
    exact (compositions_good ls (fun l hl => h l (by simp [hl]))).bind fun r _ => trivial

theorem filterLoop_good (hL : Responds b pf L) : ∀ (ls : List (Layer ℝ)) (rays : List (ℝ × ℝ)),
    (∀ l ∈ ls, Good b (layerMu pf fuel L c l 1 []) ∧ (b = true ∨ 0 < l.density * l.thickness)) →
      Good b (filterLoop pf fuel L c ls rays)
  | [], _, _ => trivial
  | l :: ls, rays, h => by
    unfold filterLoop
    refine (layerTransmissions_good hL l [] (by simp) (fun _ => (h l (by simp)).1) (h l (by simp)).2 90
      (Or.inr (by norm_num)) _).bind fun ts _ => ?_
    exact filterLoop_good hL ls _ (fun l hl => h l (by simp [hl]))

theorem pathLoop_good (f : ℝ → ℝ → ℝ) (sample : List (Layer ℝ)) (s : ℝ) : ∀ (n i : Nat) (d : ℝ),
    i + n ≤ sample.length → Good b (Xrf.pathLoop f sample s i n d)
  | 0, _, _, _ => trivial
  | n + 1, i, d, h => by
    unfold Xrf.pathLoop
    exact (vget_good (by omega)).bind fun l _ => pathLoop_good f sample s n (i + 1) _ (by omega)

theorem geometric_good (r : Int) (hr : c.referenceLayer = some r) (h0 : 0 ≤ r) (h1 : r < c.sample.length) (i : Nat)
    (hi : i < c.sample.length) : Good b (Xrf.getGeometricEfficiency c (i : Int)) := by
  unfold Xrf.getGeometricEfficiency
  refine Good.ite (fun _ => trivial) fun _ => ?_
  refine Good.ite (fun _ => trivial) fun _ => ?_
  refine Good.ite (fun h => by omega) fun _ => ?_
  rw [hr]
  dsimp only
  refine Good.bind ?_ fun _ _ => trivial
  refine Good.ite (fun h2 => ?_) fun _ => trivial
  refine Good.ite (fun h3 => ?_) fun h3 => ?_
  · refine Good.ite (fun _ => trivial) fun _ => ?_
    exact pathLoop_good _ _ _ _ _ _ (by omega)
  · exact pathLoop_good _ _ _ _ _ _ (by omega)

theorem geometricLoop_good (hr : g = true → ∃ r : Int, c.referenceLayer = some r ∧ 0 ≤ r ∧ r < c.sample.length) :
    ∀ (ls : List (Layer ℝ)) (i : Nat), i + ls.length ≤ c.sample.length → Good b (geometricLoop c g i ls)
  | [], _, _ => trivial
  | l :: ls, i, h => by
    simp only [List.length_cons] at h
    unfold geometricLoop
    refine Good.bind ?_ fun q _ => ?_
    · refine Good.ite (fun hg => ?_) fun _ => trivial
      obtain ⟨r, h1, h2, h3⟩ := hr hg
      exact geometric_good r h1 h2 h3 i (by omega)
    · exact (geometricLoop_good hr ls (i + 1) (by omega)).bind fun _ _ => trivial

theorem fluorescence_good (hL : Responds b pf L) (hr : Ready b pf fuel L c g) (hs : Library.SortsByEnergy srt)
    (o : Options ℝ) (ho : o.secondary > 0 → b = true) (beam : Beam ℝ) (reqs : List Request)
    (hq : ∀ q ∈ reqs, (b = true ∨ Known L q.element) ∧ (q.family = "" → b = true)) :
    Good b (fluorescence pf fuel L srt c o g beam (reqs.map .ok)) := by
  unfold fluorescence
  refine (compositions_good c.sample hr.sample).bind fun comps hc => ?_
  refine (filterLoop_good hL c.beamFilters _ (fun l hl =>
    ⟨hr.outer l (by simp [hl]), hr.thick l (by simp [hl])⟩)).bind fun rays _ => ?_
  refine (geometricLoop_good hr.reference c.sample 0 (by simp)).bind fun geoms hg => ?_
  refine calculate_good (answers hL hr hs hc hg) ?_ reqs hq _
  intro hsec
  have hb := ho hsec
  subst hb
  exact ⟨fun _ _ _ _ _ => deBoerL0_good _ _ _ _ _, fun _ _ _ _ _ _ _ => deBoerX_good _ _ _ _ _ _ _⟩

/-! ### C77 -/

/-- C77: without secondary excitation the calculation returns, for every beam, when each part of the configuration can be
asked alone: the layers of the sample have a composition, filters, attenuators and detector have coefficients, the
thicknesses are positive, the elements of the library answer and the requests name elements of the library. -/
theorem C77_returns (hL : Responds false pf L) (hr : Ready false pf fuel L c g) (hs : Library.SortsByEnergy srt)
    (o : Options ℝ) (ho : o.secondary ≤ 0) (beam : Beam ℝ) (reqs : List Request)
    (hq : ∀ q ∈ reqs, Known L q.element ∧ q.family ≠ "") :
    ∃ r, fluorescence pf fuel L srt c o g beam (reqs.map .ok) = .ok r :=
  Outcome.good_false_iff.mp (fluorescence_good hL hr hs o (fun h => by omega) beam reqs
    (fun q h => ⟨Or.inr (hq q h).1, fun hf => absurd hf (hq q h).2⟩))

/-- C77: with any option, any beam and any requests, the calculation returns or throws; it never executes undefined
behaviour and ends, provided the same is true of the queries on the parts. -/
theorem C77_no_undefined_behaviour (hL : Responds true pf L) (hr : Ready true pf fuel L c g)
    (hs : Library.SortsByEnergy srt) (o : Options ℝ) (beam : Beam ℝ) (reqs : List Request) :
    (∃ r, fluorescence pf fuel L srt c o g beam (reqs.map .ok) = .ok r) ∨
    ∃ x, fluorescence pf fuel L srt c o g beam (reqs.map .ok) = .throw x :=
  Outcome.good_true_iff.mp (fluorescence_good hL hr hs o (fun _ => rfl) beam reqs
    (fun _ _ => ⟨Or.inl rfl, fun _ => rfl⟩))

end api

end Multilayer
end Fisx
