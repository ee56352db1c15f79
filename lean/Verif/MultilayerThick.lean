import Verif.MultilayerSecondary
import Verif.MultilayerExample

/-!
# C77: secondary excitation in a thick homogeneous sample

With secondary excitation the calculation can be refused by the numerical functions (C60); for a sample of one layer that is
thick for all the coefficients involved it returns. A concrete sample shows that the hypotheses of C84 are met.
-/

set_option linter.unusedSectionVars false

namespace Fisx
namespace Multilayer

open Outcome (Good)
open Xrf (Request)

section thick

variable {K : Type} [Field K] [LinearOrder K] [IsStrictOrderedRing K]
variable {b : Bool} {env : Env K} {known : String → Prop} {o : Options K}

/-- The integral for one layer answers for the coefficients of the layer. -/
def IntraAnswers (b : Bool) (env : Env K) : Prop :=
  ∀ i l, env.layers[i]? = some l → ∀ e1 e2 e3 m1 m2 m3, env.mu i e1 = .ok m1 → env.mu i e2 = .ok m2 → env.mu i e3 = .ok m3 →
    Good b (env.l0 (m1 / env.sinIn) (m2 / env.sinOut) m3 l.density l.thickness) ∧
    Good b (env.l0 (m2 / env.sinOut) (m1 / (99999 / 100000 * env.sinIn)) m3 l.density l.thickness) ∧
    Good b (env.l0 (m2 / env.sinOut) (m1 / env.sinIn) m3 l.density l.thickness)

theorem intra_good' (hI : IntraAnswers b env) (i : Nat) (l : LayerData K) (hl : env.layers[i]? = some l) (e1 e2 e3 muIn : K)
    (h1 : env.mu i e1 = .ok muIn) (frac : K) (em : Emission K) (h3 : env.mu i e3 = .ok em.mu) (fs : SMap Str (Factor K))
    (t : Str) (p : Tmp K) (h2 : env.mu i e2 = .ok p.mu) : Good b (intra env l muIn frac em fs t p) := by
  obtain ⟨g1, g2, g3⟩ := hI i l hl e1 e2 e3 _ _ _ h1 h2 h3
  unfold intra
  split
  · trivial
  · refine g1.bind fun a _ => ?_
    refine Good.bind ?_ fun _ _ => trivial
    exact Good.ite (fun _ => g2) fun _ => g3

theorem lineLoop_good' {f : Str → Tmp K → Outcome (Option K)} (name : Str) :
    ∀ lines : List (Str × Tmp K), (∀ q ∈ lines, Good b (f q.1 q.2)) → Good b (lineLoop f name lines)
  | [], _ => trivial
  | (t, p) :: rest, hf => by
    unfold lineLoop
    refine (hf (t, p) (by simp)).bind fun v _ => ?_
    refine (lineLoop_good' name rest (fun q hq => hf q (by simp [hq]))).bind fun r _ => ?_
    cases v <;> trivial

theorem emissionLoop_good' (ha : Answers b env known) {element : String} (hk : known element) (thr : K) (j : Nat)
    (lines : List (Str × Tmp K)) {f : Emission K → SMap Str (Factor K) → Str → Tmp K → Outcome (Option K)} :
    ∀ ems : List (Emission K), (∀ em ∈ ems, ∀ fs, ∀ q ∈ lines, Good b (f em fs q.1 q.2)) →
      Good b (emissionLoop env element thr j lines f ems)
  | [], _ => trivial
  | em :: rest, hf => by
    unfold emissionLoop
    split_ifs
    · exact emissionLoop_good' ha hk thr j lines rest (fun em h => hf em (by simp [h]))
    · refine (ha.excite _ hk _ _).bind fun fs _ => ?_
      refine (lineLoop_good' _ lines (hf em (by simp) fs)).bind fun a _ => ?_
      exact (emissionLoop_good' ha hk thr j lines rest (fun em h => hf em (by simp [h]))).bind fun r _ => trivial

theorem openLines_mu (hreg : Regular env) {key family : String} {i : Nat} {g thr : K} : ∀ (fs : List (Str × Factor K))
    (res : Result K) (x : List (Str × Tmp K) × Result K), (∀ q ∈ fs, Plain q.1) →
    (∀ t l, Plain t → leaf? res key i t = some l → ∃ e, env.mu i e = .ok l.mu) →
    openLines env key family i g thr fs res = .ok x → ∀ q ∈ x.1, ∃ e, env.mu i e = .ok q.2.mu
  | [], res, x, _, _, h => by
    simp only [openLines, Outcome.ok.injEq] at h
    subst h
    simp
  | (t, f) :: rest, res, x, hpl, hres, h => by
    have hpl' : ∀ q ∈ rest, Plain q.1 := fun q hq => hpl q (by simp [hq])
    unfold openLines at h
    split_ifs at h
    · exact openLines_mu hreg rest res x hpl' hres h
    · exact openLines_mu hreg rest res x hpl' hres h
    · cases hlf : leaf? res key i t with
      | some l =>
        rw [hlf] at h
        dsimp only at h
        obtain ⟨r, h1, h⟩ := Outcome.bind_eq_ok.mp h
        simp only [Outcome.pure_eq, Outcome.ok.injEq] at h
        subst h
        intro q hq
        rcases List.mem_cons.mp hq with rfl | hq
        · exact hres t l (hpl (t, f) (by simp)) hlf
        · exact openLines_mu hreg rest res r hpl' hres h1 q hq
      | none =>
        rw [hlf] at h
        dsimp only at h
        obtain ⟨m, h1, h⟩ := Outcome.bind_eq_ok.mp h
        obtain ⟨d, h2, h⟩ := Outcome.bind_eq_ok.mp h
        obtain ⟨r, h3, h⟩ := Outcome.bind_eq_ok.mp h
        simp only [Outcome.pure_eq, Outcome.ok.injEq] at h
        subst h
        intro q hq
        rcases List.mem_cons.mp hq with rfl | hq
        · exact ⟨_, h1⟩
        · refine openLines_mu hreg rest _ r hpl' ?_ h3 q hq
          intro t' l' ht' hl'
          by_cases hh : t = t'
          · subst hh
            rw [leaf?_put_self] at hl'
            simp only [Option.some.injEq] at hl'
            subst hl'
            exact ⟨_, h1⟩
          · rw [leaf?_put_line _ _ _ _ _ _ hh] at hl'
            exact hres t' l' ht' hl'

theorem cell_good' {mix : Nat → K → Outcome (Mix K)} (hc : Consistent env mix) (hreg : Regular env)
    (ha : Answers b env known) (hI : IntraAnswers b env) (h1 : env.layers.length = 1) {m e w : K} {rd : RayData K}
    (hrd : rayData env o m e w = .ok rd) (req : Request) (hk : known req.element) (thr : K) (factors : SMap Str (Factor K))
    (hex : env.excite req.element rd.energy rd.weight = .ok factors) (i : Nat) (l : LayerData K)
    (hl : env.layers[i]? = some l) (res : Result K) (hcan : Canon env res) :
    Good b (cell env o rd req thr factors i l res) := by
  have hr := rayData_shape ha m e w rd hrd
  have hi : i < env.layers.length := (List.getElem?_eq_some_iff.mp hl).1
  obtain rfl : i = 0 := by omega
  unfold cell
  refine Good.ite (fun _ => trivial) fun _ => ?_
  refine Good.ite (fun _ => trivial) fun _ => ?_
  refine (openLines_good ha _ _ 0 hi _ _ _ _).bind fun r hop => ?_
  refine Good.ite (fun _ => trivial) fun _ => ?_
  refine (ha.mu 0 hi _).bind fun muIn hmu => ?_
  refine (vget_good (by rw [hr.incident]; exact hi)).bind fun p hp => ?_
  refine Good.bind ?_ fun cs _ => deposit_good ha _ 0 _ _ _
  refine Good.ite (fun ho => ?_) (fun _ => trivial)
  rw [h1]
  unfold secondaryLoop
  have hem : 0 < rd.emissions.length := by rw [hr.emissions ho]; omega
  refine (vget_good hem).bind fun ems he => ?_
  refine (vget_good (by rw [hr.incident]; omega)).bind fun p2 hp2 => ?_
  refine (vget_good (by omega)).bind fun l2 _ => ?_
  refine Good.bind ?_ fun a _ => by unfold secondaryLoop; trivial
  rw [if_pos rfl]
  refine emissionLoop_good' ha hk thr 0 _ ems fun em hem fs q hq => ?_
  have hmuq : ∃ e, env.mu 0 e = .ok q.2.mu := by
    obtain ⟨q', hq', rfl⟩ := List.mem_map.mp hq
    obtain ⟨e', he'⟩ := openLines_mu hreg _ _ _ (fun q hq => hreg.names _ _ _ _ hex q.1 (List.mem_map.mpr ⟨q, hq, rfl⟩))
      (fun t l ht hlf => ⟨_, (hcan _ _ t l ht hlf).1⟩) hop q' hq'
    exact ⟨e', he'⟩
  obtain ⟨e2, h2⟩ := hmuq
  have h3 : ∃ e, env.mu 0 e = .ok em.mu := by
    obtain ⟨r1, r2, r3, r4, r5⟩ := rayData_parts hrd
    rw [if_pos ho] at r4
    have : ∃ l3 p3, layerEmissions env o m e w 0 l3 p3 = .ok ems := by
      cases hls : env.layers with
      | nil => rw [hls] at h1; cases h1
      | cons l3 ls =>
        rw [hls] at r4
        cases hinc : rd.incident with
        | nil =>
          have := hr.incident
          rw [hinc, hls] at this
          cases this
        | cons p3 ps =>
          rw [hinc, emissionsLoop] at r4
          obtain ⟨em3, x1, r4⟩ := Outcome.bind_eq_ok.mp r4
          obtain ⟨r', x2, r4⟩ := Outcome.bind_eq_ok.mp r4
          simp only [Outcome.pure_eq, Outcome.ok.injEq] at r4
          rw [← r4] at he
          have := vget_ok.1 he
          simp only [List.getElem?_cons_zero, Option.some.injEq] at this
          subst this
          exact ⟨_, _, x1⟩
    obtain ⟨l3, p3, hle⟩ := this
    obtain ⟨fam, raw, last, -, -, -, hF⟩ := layerEmissions_spec hc o m e w 0 l3 p3 ems hle
    generalize raw ++ _ = rl at hF
    clear hle he
    induction hF with
    | nil => cases hem
    | cons x1 x2 ih =>
      rcases List.mem_cons.mp hem with rfl | hem
      · exact ⟨_, x1.2.2.2⟩
      · exact ih hem
  obtain ⟨e3, h3⟩ := h3
  exact intra_good' hI 0 l hl rd.energy e2 e3 muIn hmu _ em h3 fs q.1 q.2 h2

theorem requestLoop_good' {mix : Nat → K → Outcome (Mix K)} (hc : Consistent env mix) (hreg : Regular env)
    (ha : Answers b env known) (hI : IntraAnswers b env) (h1 : env.layers.length = 1) {m e w : K} {rd : RayData K}
    (hrd : rayData env o m e w = .ok rd) : ∀ (reqs : List Request),
    (∀ q ∈ reqs, known q.element ∧ (q.family = "" → b = true) ∧ Plain q.element.toList) →
    ∀ (n : Nat) (thrs : List K) (res : Result K), Canon env res →
      Good b (requestLoop env o rd n (reqs.map .ok) thrs res) ∧
      ∀ x, requestLoop env o rd n (reqs.map .ok) thrs res = .ok x → Canon env x.2
  | [], _, _, _, _, hcan => ⟨trivial, fun x h => by
      simp only [List.map_nil, requestLoop, Outcome.ok.injEq] at h
      subst h
      exact hcan⟩
  | q :: reqs, h, n, thrs, res, hcan => by
    obtain ⟨hk, hf, hp⟩ := h q (by simp)
    have h' : ∀ q ∈ reqs, known q.element ∧ (q.family = "" → b = true) ∧ Plain q.element.toList :=
      fun q hq => h q (by simp [hq])
    have ih := requestLoop_good' hc hreg ha hI h1 hrd reqs h'
    have hcell : ∀ thr fs, env.excite q.element rd.energy rd.weight = .ok fs →
        Good b (cellLoop env o rd q thr fs 0 env.layers res) ∧
        ∀ r, cellLoop env o rd q thr fs 0 env.layers res = .ok r → Canon env r := by
      intro thr fs hex
      refine ⟨?_, fun r hr => (cellLoop_amount hc hreg o rd q thr fs hp hex _ 0 res r rfl hcan hr).1⟩
      obtain ⟨l, hl⟩ : ∃ l, env.layers = [l] := List.length_eq_one_iff.mp h1
      rw [hl]
      unfold cellLoop
      refine (cell_good' hc hreg ha hI h1 hrd q hk thr fs hex 0 l (by rw [hl]; rfl) res hcan).bind fun r _ => ?_
      unfold cellLoop
      trivial
    simp only [List.map_cons, requestLoop, Outcome.ok_bind]
    constructor
    · refine Good.bind ?_ fun x _ => ?_
      · unfold thresholdOf
        refine Good.ite (fun he => hf he) fun _ => ?_
        split
        · trivial
        · exact (ha.threshold _ hk _).bind fun t _ => trivial
      · refine Good.ite (fun _ => (ih _ _ _ hcan).1) (fun _ => ?_)
        refine (ha.excite _ hk _ _).bind fun fs hex => ?_
        exact (hcell _ fs hex).1.bind fun r hr => (ih _ _ _ ((hcell _ fs hex).2 r hr)).1
    · intro x hx
      obtain ⟨y, h2, hx⟩ := Outcome.bind_eq_ok.mp hx
      split_ifs at hx
      · exact (ih _ _ _ hcan).2 x hx
      · obtain ⟨fs, h3, hx⟩ := Outcome.bind_eq_ok.mp hx
        obtain ⟨r, h4, hx⟩ := Outcome.bind_eq_ok.mp hx
        exact (ih _ _ _ ((hcell _ fs h3).2 r h4)).2 x hx

theorem rayLoop_good' {mix : Nat → K → Outcome (Mix K)} (hc : Consistent env mix) (hreg : Regular env)
    (ha : Answers b env known) (hI : IntraAnswers b env) (h1 : env.layers.length = 1) (reqs : List Request)
    (hq : ∀ q ∈ reqs, known q.element ∧ (q.family = "" → b = true) ∧ Plain q.element.toList) :
    ∀ (rays : List (K × K)) (thrs : List K) (m : K) (res : Result K), Canon env res →
      Good b (rayLoop env o (reqs.map .ok) rays thrs m res)
  | [], _, _, _, _ => trivial
  | (e, w) :: rays, thrs, m, res, hcan => by
    unfold rayLoop
    dsimp only
    split_ifs
    · exact rayLoop_good' hc hreg ha hI h1 reqs hq rays _ _ _ hcan
    · refine (rayData_good ha _ e w).bind fun rd hrd => ?_
      have := requestLoop_good' hc hreg ha hI h1 hrd reqs hq 0 thrs res hcan
      exact this.1.bind fun x hx => rayLoop_good' hc hreg ha hI h1 reqs hq rays _ _ _ (this.2 x hx)

end thick

/-! ## The call -/

section api

variable {R : Type} {pf : String → Outcome (SMap String ℝ)} {fuel : Nat} {L : Library ℝ}
  {srt : List (String × ℝ) → List (String × ℝ)} {c : Config ℝ R} {g : Bool}

/-- A thick target: the integral is the one of an infinite layer. -/
theorem deBoerL0_thick {mu1 mu2 muj density thickness : ℝ} (h1 : 0 < mu1) (h2 : 0 < mu2) (hj : 0 < muj)
    (hd : 10 < (mu1 + mu2) * (thickness * density)) : Good false (MathFn.deBoerL0 mu1 mu2 muj density thickness) := by
  unfold MathFn.deBoerL0
  rw [if_neg (by push Not; exact ⟨h1, h2, hj⟩)]
  dsimp only
  rw [if_pos hd]
  trivial

/-- C77: with secondary excitation the calculation returns when the sample is one layer that is thick for all energies
(`B` is a lower bound of its coefficients), whatever the beam and the requests. -/
theorem C77_thick_sample_returns (hS : SoundLibrary pf fuel L) (hL : Responds false pf L) (hr : Ready false pf fuel L c g)
    (hs : Library.SortsByEnergy srt) (o : Options ℝ) (beam : Beam ℝ) (reqs : List Request)
    (hq : ∀ q ∈ reqs, Known L q.element ∧ q.family ≠ "" ∧ ' ' ∉ q.element.toList)
    (l : Layer ℝ) (hsample : c.sample = [l]) (B : ℝ) (hB : 0 < B)
    (hmu : ∀ e m, layerMu pf fuel L c l e (sampleComposition pf fuel L c 0) = .ok m → B ≤ m.total)
    (h1 : 0 < sinIn c) (h2 : 0 < sinOut c) (hthick : 10 < (B / sinIn c + B / sinOut c) * (l.density * l.thickness)) :
    ∃ r, fluorescence pf fuel L srt c o g beam (reqs.map .ok) = .ok r := by
  rw [← Outcome.good_false_iff]
  unfold fluorescence
  refine (compositions_good c.sample hr.sample).bind fun comps hc => ?_
  refine (filterLoop_good hL c.beamFilters _ (fun l hl =>
    ⟨hr.outer l (by simp [hl]), hr.thick l (by simp [hl])⟩)).bind fun rays _ => ?_
  refine (geometricLoop_good hr.reference c.sample 0 (by simp)).bind fun geoms hg => ?_
  have ha := answers (srt := srt) hL hr hs hc hg
  have hlen : (envOf pf fuel L srt c comps geoms).layers.length = 1 := by
    rw [sample_length hc hg, hsample]
    rfl
  have hmass : 0 < l.density * l.thickness := by
    have := hr.thick l (by rw [hsample]; simp)
    simpa using this
  have hpos : ∀ e m, (envOf pf fuel L srt c comps geoms).mu 0 e = .ok m → B ≤ m := by
    intro e m hm
    change (do let l ← vget c.sample 0; let m ← vget comps 0; let r ← layerMu pf fuel L c l e m; return r.total) = _ at hm
    obtain ⟨l', x1, hm⟩ := Outcome.bind_eq_ok.mp hm
    obtain ⟨q, x2, hm⟩ := Outcome.bind_eq_ok.mp hm
    obtain ⟨r, x3, hm⟩ := Outcome.bind_eq_ok.mp hm
    simp only [Outcome.pure_eq, Outcome.ok.injEq] at hm
    rw [vget_ok] at x1 x2
    have hl' : l' = l := by
      rw [hsample] at x1
      simpa using x1.symm
    obtain ⟨-, a2⟩ := compositions_get _ _ hc
    obtain ⟨q', b1, b2⟩ := a2 0 l' x1
    rw [x2] at b1
    cases b1
    rw [← hm]
    subst hl'
    refine hmu e r ?_
    rw [sampleComposition_eq x1 b2]
    exact x3
  have hI : IntraAnswers false (envOf pf fuel L srt c comps geoms) := by
    intro i l' hl' e1 e2 e3 m1 m2 m3 hm1 hm2 hm3
    have hi : i < (envOf pf fuel L srt c comps geoms).layers.length := (List.getElem?_eq_some_iff.mp hl').1
    obtain rfl : i = 0 := by omega
    obtain ⟨l0, q, x1, x2, x3, x4⟩ := layers_get_inv (srt := srt) hc hg 0 l' hl'
    have hl0 : l0 = l := by
      rw [hsample] at x1
      simpa using x1.symm
    have hd : l'.thickness * l'.density = l.density * l.thickness := by rw [x4, hl0]; ring
    have p1 := hpos _ _ hm1
    have p2 := hpos _ _ hm2
    have p3 := lt_of_lt_of_le hB (hpos _ _ hm3)
    have q1 : 0 < m1 / sinIn c := div_pos (lt_of_lt_of_le hB p1) h1
    have q2 : 0 < m2 / sinOut c := div_pos (lt_of_lt_of_le hB p2) h2
    have d1 : B / sinIn c ≤ m1 / sinIn c := by gcongr
    have d2 : B / sinOut c ≤ m2 / sinOut c := by gcongr
    have q3 : m1 / sinIn c ≤ m1 / (99999 / 100000 * sinIn c) := by
      rw [muTotal_sum, le_div_iff₀ (by norm_num)]
      linarith
    have big : ∀ a b : ℝ, B / sinIn c + B / sinOut c ≤ a + b → 10 < (a + b) * (l'.thickness * l'.density) := by
      intro a b hab
      rw [hd]
      refine lt_of_lt_of_le hthick ?_
      exact mul_le_mul_of_nonneg_right hab hmass.le
    have b1 := big (m1 / sinIn c) (m2 / sinOut c) (by linarith)
    have b2 := big (m2 / sinOut c) (m1 / (99999 / 100000 * sinIn c)) (by linarith)
    have b3 := big (m2 / sinOut c) (m1 / sinIn c) (by linarith)
    exact ⟨deBoerL0_thick q1 q2 p3 b1, deBoerL0_thick q2 (lt_of_lt_of_le q1 q3) p3 b2, deBoerL0_thick q2 q1 p3 b3⟩
  unfold calculate
  exact (rayLoop_good' (env_consistent hS) (env_regular hS) ha hI hlen reqs
    (fun q h => ⟨Or.inr (hq q h).1, fun hf => absurd hf (hq q h).2.1, (hq q h).2.2⟩) _ _ _ _
    (fun k i t l _ hh => by cases hh)).bind fun r _ => trivial

end api

/-! ## The example -/

theorem fe_vgetI {l : List ℝ} {x v : ℝ} (hl : ∀ y ∈ l, y = x) {i : Int} (h : vgetI l i = .ok v) : v = x := by
  unfold vgetI at h
  split_ifs at h
  exact hl v (List.mem_of_getElem? (vget_ok.1 h))

theorem fe_process {b : Int × Int × ℝ × ℝ} {x v : ℝ} (h : Element.processValue b x [1, 1] = .ok v) : v = 1 := by
  obtain ⟨i1, i2, x0, x1⟩ := b
  unfold Element.processValue at h
  dsimp only at h
  split_ifs at h
  · exact fe_vgetI (by simp) h
  · obtain ⟨y0, h0, h⟩ := Outcome.bind_eq_ok.mp h
    obtain ⟨y1, h1, h⟩ := Outcome.bind_eq_ok.mp h
    have e0 : y0 = 1 := fe_vgetI (by simp) h0
    have e1 : y1 = 1 := fe_vgetI (by simp) h1
    subst e0 e1
    simp only [Outcome.pure_eq, Outcome.ok.injEq] at h
    rw [← h]
    unfold Element.logLogGuarded
    rw [if_pos (by norm_num)]
    unfold Element.logLog
    show Real.exp (_ * Real.log 1 + _ * Real.log 1) = 1
    simp

theorem fe_process_zero {b : Int × Int × ℝ × ℝ} {x v : ℝ} (h : Element.processValue b x [0, 0] = .ok v) : 0 ≤ v := by
  obtain ⟨i1, i2, x0, x1⟩ := b
  unfold Element.processValue at h
  dsimp only at h
  split_ifs at h
  · exact (fe_vgetI (x := 0) (by simp) h).ge
  · obtain ⟨y0, h0, h⟩ := Outcome.bind_eq_ok.mp h
    obtain ⟨y1, h1, h⟩ := Outcome.bind_eq_ok.mp h
    simp only [Outcome.pure_eq, Outcome.ok.injEq] at h
    rw [← h]
    unfold Element.logLogGuarded
    split_ifs
    · exact (Real.exp_pos _).le
    · exact (Real.exp_pos _).le
    · exact le_refl _

/-- The coefficients of the example are at least 2 at every energy. -/
theorem fe_total {x : ℝ} {m : Mu ℝ} (h : Element.getMu feElement x = .ok m) :
    m.coherent = 1 ∧ m.compton = 1 ∧ 0 ≤ m.pair ∧ 0 ≤ m.photoelectric := by
  have hc : Element.computeMu feElement x = .ok m := h
  have hV : Element.PartialsNonneg feElement := by
    intro s l hl v hv
    have := SMap.mem_of_find? hl
    simp only [feElement, List.mem_cons, Prod.mk.injEq, List.not_mem_nil, or_false] at this
    rcases this with ⟨-, rfl⟩ | ⟨-, rfl⟩
    · simp only [List.mem_cons, List.not_mem_nil, or_false] at hv
      rcases hv with rfl | rfl | rfl <;> norm_num
    · simp only [List.mem_cons, List.not_mem_nil, or_false] at hv
      rcases hv with rfl | rfl <;> norm_num
  obtain ⟨ok1, ok2⟩ := Element.computeMu_ok (fun x => (Real.exp_pos x).le) hV hc
  unfold Element.computeMu at hc
  obtain ⟨parts, h1, hc⟩ := Outcome.bind_eq_ok.mp hc
  obtain ⟨b, h2, hc⟩ := Outcome.bind_eq_ok.mp hc
  obtain ⟨coh, h3, hc⟩ := Outcome.bind_eq_ok.mp hc
  obtain ⟨com, h4, hc⟩ := Outcome.bind_eq_ok.mp hc
  obtain ⟨pai, h5, hc⟩ := Outcome.bind_eq_ok.mp hc
  simp only [Outcome.pure_eq, Outcome.ok.injEq] at hc
  have e1 : m.coherent = coh := by rw [← hc]
  have e2 : m.compton = com := by rw [← hc]
  have e3 : m.pair = pai := by rw [← hc]
  refine ⟨e1 ▸ fe_process h3, e2 ▸ fe_process h4, e3 ▸ fe_process_zero h5, ?_⟩
  rw [ok2]
  exact List.sum_nonneg (by
    intro y hy
    obtain ⟨s, -, rfl⟩ := List.mem_map.mp hy
    exact ok1 s)

theorem fe_layerMu (fuel : Nat) (e : ℝ) (m : Mix ℝ)
    (h : layerMu feParser (fuel + 1) feLibrary feConfig (Layer.new "Fe" 8 1 1) e
      (sampleComposition feParser (fuel + 1) feLibrary feConfig 0) = .ok m) : 2 ≤ m.total := by
  have hs : sampleComposition feParser (fuel + 1) feLibrary feConfig 0 = [("Fe", 1)] :=
    sampleComposition_eq (l := Layer.new "Fe" 8 1 1) rfl (feComposition fuel _ (by simp [feConfig]))
  rw [hs] at h
  unfold layerMu at h
  rw [if_pos (by simp)] at h
  unfold Library.mixMu Library.amounts at h
  rw [if_pos rfl, Outcome.ok_bind] at h
  have hd : feLibrary.dict.find? "Fe" = some 0 := rfl
  have hv : vget feLibrary.elements 0 = .ok ⟨"Fe", 56, feElement⟩ := rfl
  unfold Library.mixSum at h
  rw [hd] at h
  dsimp only at h
  rw [hv, Outcome.ok_bind] at h
  obtain ⟨s, h1, h⟩ := Outcome.bind_eq_ok.mp h
  obtain ⟨q, h2, h1⟩ := Outcome.bind_eq_ok.mp h1
  obtain ⟨t1, t2, t3, t4⟩ := fe_total h2
  simp only [Library.mixSum, Outcome.ok.injEq] at h1
  simp only [Outcome.pure_eq, Outcome.ok.injEq] at h
  rw [← h, ← h1]
  dsimp only
  rw [t1, t2]
  simp only [zero_add, div_one, mul_one]
  linarith

/-- The hypotheses of C84 hold for the iron sample with secondary excitation: the call returns, and the result has the
line. -/
theorem fe_result_secondary (fuel : Nat) (srt : List (String × ℝ) → List (String × ℝ)) (hs : Library.SortsByEnergy srt)
    (limit : ℝ) (sec : Int) (hsec : 0 < sec) : ∃ r, fluorescence feParser (fuel + 1) feLibrary srt feConfig
      ⟨sec, true, limit⟩ true Beam.new [.ok ⟨"Fe", "K", 0⟩] = .ok r ∧ (leaf? r "Fe K" 0 "KL3".toList).isSome ∧
      SoundLibrary feParser (fuel + 1) feLibrary ∧ 0 < (⟨sec, true, limit⟩ : Options ℝ).secondary := by
  have hsin : 0 < Real.sin (45 * (Real.pi / 180)) := by
    apply Real.sin_pos_of_pos_of_lt_pi
    · positivity
    · nlinarith [Real.pi_pos]
  have h1 : sinIn feConfig = Real.sin (45 * (Real.pi / 180)) := rfl
  have h2 : sinOut feConfig = Real.sin (45 * (Real.pi / 180)) := rfl
  have hle : 2 ≤ 2 / Real.sin (45 * (Real.pi / 180)) := by
    rw [le_div_iff₀ hsin]
    nlinarith [Real.sin_le_one (45 * (Real.pi / 180))]
  obtain ⟨r, hr⟩ := C77_thick_sample_returns (feSound _ _) feResponds (feReady fuel) hs ⟨sec, true, limit⟩ Beam.new
    [⟨"Fe", "K", 0⟩] (by simp [feKnown]) (Layer.new "Fe" 8 1 1) rfl 2 (by norm_num) (fe_layerMu fuel) (h1 ▸ hsin) (h2 ▸ hsin) (by
      rw [h1, h2]
      show 10 < (2 / Real.sin (45 * (Real.pi / 180)) + 2 / Real.sin (45 * (Real.pi / 180))) * (8 * 1)
      linarith)
  refine ⟨r, hr, ?_, feSound _ _, hsec⟩
  rw [C72_lines (hL := feSound _ _) (reqs := [⟨"Fe", "K", 0⟩]) (b := Beam.new) (r := r) (h := hr) (ht := by decide)]
  obtain ⟨r0, hr0, hleaf⟩ := fe_result fuel srt hs limit
  have := (C72_lines (hL := feSound _ _) (reqs := [⟨"Fe", "K", 0⟩]) (b := Beam.new) (r := r0) (h := hr0)
    (k := "Fe K") (i := 0) (t := "KL3".toList) (ht := by decide)).1 hleaf
  exact this

end Multilayer
end Fisx
