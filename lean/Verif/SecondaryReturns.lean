import Verif.MultilayerThick
import Verif.CrossSign

/-!
# C77: secondary excitation between layers

With secondary excitation the calculation returns for samples of any number of layers, if each layer is thick or thin for all
the coefficients involved.
-/

set_option linter.unusedSectionVars false

namespace Fisx
namespace Multilayer

open Outcome (Good)
open Xrf (Request)

section loops

variable {b : Bool} {env : Env ℝ} {known : String → Prop} {o : Options ℝ}

/-- The integrals for two layers answer for the coefficients of the layers. -/
def InterAnswers (b : Bool) (env : Env ℝ) : Prop :=
  ∀ i j l1 l2, env.layers[i]? = some l1 → env.layers[j]? = some l2 → ∀ e1 e2 e3 m2 mT mi mj mub,
    env.mu j e1 = .ok m2 → env.mu i e2 = .ok mT → env.mu i e3 = .ok mi → env.mu j e3 = .ok mj → 0 ≤ mub →
    (i < j → ¬ env.exp (-mT * l1.density * l1.thickness / env.sinOut) < 1 / 1000 →
      Good b (env.x (m2 / env.sinIn) (mT / env.sinOut) (l1.density * l1.thickness) (l2.density * l2.thickness) mi mj mub) ∧
      Good b (env.x (m2 / (99999 / 100000 * env.sinIn)) (mT / env.sinOut) (l1.density * l1.thickness)
        (l2.density * l2.thickness) mi mj mub)) ∧
    (j < i → Good b (if m2 / env.sinIn = mj then env.x (-m2 / (99999 / 100000 * env.sinIn)) (-mT / env.sinOut)
        (l1.density * l1.thickness) (l2.density * l2.thickness) mi mj mub
      else env.x (-m2 / env.sinIn) (-mT / env.sinOut) (l1.density * l1.thickness) (l2.density * l2.thickness) mi mj mub))

/-- Coefficients and thicknesses are not negative. -/
def NotNegative (env : Env ℝ) : Prop :=
  (∀ i e m, env.mu i e = .ok m → 0 ≤ m) ∧
    ∀ (i : Nat) (l : LayerData ℝ), env.layers[i]? = some l → 0 ≤ l.density * l.thickness

theorem betweenLoop_nonneg (hn : NotNegative env) {rd : RayData ℝ} (hk : CacheOk env rd) (e : ℝ) :
    ∀ (n i : Nat) (acc v : ℝ), 0 ≤ acc → betweenLoop env rd e i n acc = .ok v → 0 ≤ v
  | 0, _, acc, v, ha, h => by
    simp only [betweenLoop, Outcome.ok.injEq] at h
    exact h ▸ ha
  | n + 1, i, acc, v, ha, h => by
    unfold betweenLoop at h
    obtain ⟨l, h1, h⟩ := Outcome.bind_eq_ok.mp h
    obtain ⟨m, h2, h⟩ := Outcome.bind_eq_ok.mp h
    exact betweenLoop_nonneg hn hk e n _ _ v
      (add_nonneg ha (mul_nonneg (hn.2 _ _ (vget_ok.1 h1)) (hn.1 _ _ _ (hk _ _ _ h2)))) h

theorem inter_good' (ha : Answers b env known) (hI : InterAnswers b env) (hn : NotNegative env) {rd : RayData ℝ}
    (hr : RayShape env o rd) (hk : CacheOk env rd) (i j : Nat) (hij : i ≠ j) (l1 l2 : LayerData ℝ)
    (hl1 : env.layers[i]? = some l1) (hl2 : env.layers[j]? = some l2) (e1 e2 mu2 frac : ℝ) (h1 : env.mu j e1 = .ok mu2)
    (em : Emission ℝ) (h3 : env.mu j em.energy = .ok em.mu)
    (fs : SMap Str (Factor ℝ)) (t : Str) (p : Tmp ℝ) (h2 : env.mu i e2 = .ok p.mu) :
    Good b (inter env rd i j l1 l2 mu2 frac em fs t p) := by
  have hi : i < env.layers.length := (List.getElem?_eq_some_iff.mp hl1).1
  have hj : j < env.layers.length := (List.getElem?_eq_some_iff.mp hl2).1
  unfold inter
  split
  · trivial
  · refine Good.ite (fun _ => trivial) fun _ => ?_
    refine (cachedMu_good ha hr i hi _).bind fun m hm => ?_
    have hmi := hk _ _ _ hm
    refine Good.ite (fun hlt => ?_) (fun hlt => ?_)
    · refine (betweenLoop_good ha hr _ _ _ _ (by omega)).bind fun mb hb => ?_
      have hb0 := betweenLoop_nonneg hn hk _ _ _ _ _ le_rfl hb
      refine Good.ite (fun _ => trivial) fun hg => ?_
      obtain ⟨g1, g2⟩ := (hI i j l1 l2 hl1 hl2 _ _ _ _ _ _ _ mb h1 h2 hmi h3 hb0).1 hlt hg
      refine Good.bind ?_ fun _ _ => trivial
      exact Good.ite (fun _ => g2) (fun _ => g1)
    · refine (betweenLoop_good ha hr _ _ _ _ (by omega)).bind fun mb hb => ?_
      have hb0 := betweenLoop_nonneg hn hk _ _ _ _ _ le_rfl hb
      refine Good.bind ?_ fun _ _ => trivial
      exact (hI i j l1 l2 hl1 hl2 _ _ _ _ _ _ _ mb h1 h2 hmi h3 hb0).2 (by omega)

/-- The emissions of a layer have the coefficient of the layer at their energy. -/
theorem emissions_mu {mix : Nat → ℝ → Outcome (Mix ℝ)} (hc : Consistent env mix) {m e w : ℝ} {rd : RayData ℝ}
    (hrd : rayData env o m e w = .ok rd) (ho : o.secondary > 0) {j : Nat} {ems : List (Emission ℝ)}
    (he : vget rd.emissions j = .ok ems) (em : Emission ℝ) (hem : em ∈ ems) : env.mu j em.energy = .ok em.mu := by
  obtain ⟨-, -, -, r4, -⟩ := rayData_parts hrd
  rw [if_pos ho] at r4
  obtain ⟨l, p, -, -, h1⟩ := emissionsLoop_get env o m e w _ _ 0 _ r4 j ems (vget_ok.1 he)
  rw [Nat.zero_add] at h1
  obtain ⟨fam, raw, last, -, -, -, hF⟩ := layerEmissions_spec hc o m e w j l p.1 ems h1
  generalize raw ++ _ = rl at hF
  clear h1 he
  induction hF with
  | nil => cases hem
  | cons x1 x2 ih =>
    rcases List.mem_cons.mp hem with rfl | hem
    · rw [x1.2.1]
      exact x1.2.2.2
    · exact ih hem

theorem incident_mu {e : ℝ} : ∀ (ls : List (LayerData ℝ)) (i : Nat) (acc : ℝ) (r : List (ℝ × ℝ)),
    incident env e i ls acc = .ok r → ∀ j p, r[j]? = some p → env.mu (i + j) e = .ok p.2
  | [], i, acc, r, h, j, p, hp => by
    simp only [incident, Outcome.ok.injEq] at h
    subst h
    simp at hp
  | l :: ls, i, acc, r, h, j, p, hp => by
    unfold incident at h
    obtain ⟨m, h1, h⟩ := Outcome.bind_eq_ok.mp h
    obtain ⟨r', h2, h⟩ := Outcome.bind_eq_ok.mp h
    simp only [Outcome.pure_eq, Outcome.ok.injEq] at h
    subst h
    cases j with
    | zero =>
      simp only [List.getElem?_cons_zero, Option.some.injEq] at hp
      subst hp
      exact h1
    | succ j =>
      have := incident_mu ls (i + 1) _ r' h2 j p (by simpa using hp)
      rwa [show i + (j + 1) = i + 1 + j by omega]

theorem secondaryLoop_good' {mix : Nat → ℝ → Outcome (Mix ℝ)} (hc : Consistent env mix) (ha : Answers b env known)
    (hI : IntraAnswers b env) (hX : InterAnswers b env) (hn : NotNegative env) {m e w : ℝ} {rd : RayData ℝ}
    (hrd : rayData env o m e w = .ok rd) (ho : o.secondary > 0) {element : String} (hk : known element) (thr : ℝ) (i : Nat)
    (l : LayerData ℝ) (hl : env.layers[i]? = some l) (muIn lw frac : ℝ) (hmu : env.mu i rd.energy = .ok muIn)
    (lines : List (Str × Tmp ℝ)) (hlines : ∀ q ∈ lines, ∃ e, env.mu i e = .ok q.2.mu) :
    ∀ (n j : Nat), j + n ≤ env.layers.length → Good b (secondaryLoop env rd element thr i l muIn lw frac lines j n)
  | 0, _, _ => trivial
  | n + 1, j, h => by
    have hr := rayData_shape ha m e w rd hrd
    obtain ⟨-, -, r3, -, r5⟩ := rayData_parts hrd
    have hcache := cacheOk_of hc _ r5
    unfold secondaryLoop
    refine (vget_good (by rw [hr.emissions ho]; omega)).bind fun ems he => ?_
    refine (vget_good (by rw [hr.incident]; omega)).bind fun p hp => ?_
    refine (vget_good (by omega)).bind fun l2 hl2 => ?_
    refine Good.bind ?_ fun a _ => ?_
    · refine Good.ite (fun hij => ?_) fun hij => ?_
      · subst hij
        refine emissionLoop_good' ha hk thr i _ ems fun em hem fs q hq => ?_
        obtain ⟨e2, h2⟩ := hlines q hq
        exact intra_good' hI i l hl rd.energy e2 em.energy muIn hmu _ em (emissions_mu hc hrd ho he em hem) fs q.1 q.2 h2
      · refine Good.ite (fun _ => trivial) fun _ => ?_
        refine emissionLoop_good' ha hk thr j _ ems fun em hem fs q hq => ?_
        obtain ⟨e2, h2⟩ := hlines q hq
        have hm2 := incident_mu _ 0 0 _ r3 j p (vget_ok.1 hp)
        rw [Nat.zero_add] at hm2
        exact inter_good' ha hX hn hr hcache i j hij l l2 hl (vget_ok.1 hl2) _ e2 _ _ hm2 em
          (emissions_mu hc hrd ho he em hem) fs q.1 q.2 h2
    · exact (secondaryLoop_good' hc ha hI hX hn hrd ho hk thr i l hl muIn lw frac hmu lines hlines n (j + 1)
        (by omega)).bind fun r _ => trivial

theorem cell_good'' {mix : Nat → ℝ → Outcome (Mix ℝ)} (hc : Consistent env mix) (hreg : Regular env)
    (ha : Answers b env known) (hI : IntraAnswers b env) (hX : InterAnswers b env) (hn : NotNegative env) {m e w : ℝ}
    {rd : RayData ℝ} (hrd : rayData env o m e w = .ok rd) (req : Request) (hk : known req.element) (thr : ℝ)
    (factors : SMap Str (Factor ℝ)) (hex : env.excite req.element rd.energy rd.weight = .ok factors) (i : Nat) (l : LayerData ℝ)
    (hl : env.layers[i]? = some l) (res : Result ℝ) (hcan : Canon env res) :
    Good b (cell env o rd req thr factors i l res) := by
  have hr := rayData_shape ha m e w rd hrd
  have hi : i < env.layers.length := (List.getElem?_eq_some_iff.mp hl).1
  unfold cell
  refine Good.ite (fun _ => trivial) fun _ => ?_
  refine Good.ite (fun _ => trivial) fun _ => ?_
  refine (openLines_good ha _ _ i hi _ _ _ _).bind fun r hop => ?_
  refine Good.ite (fun _ => trivial) fun _ => ?_
  refine (ha.mu i hi _).bind fun muIn hmu => ?_
  refine (vget_good (by rw [hr.incident]; exact hi)).bind fun p hp => ?_
  refine Good.bind ?_ fun cs _ => deposit_good ha _ i _ _ _
  refine Good.ite (fun ho => ?_) (fun _ => trivial)
  refine secondaryLoop_good' hc ha hI hX hn hrd ho hk thr i l hl _ _ _ hmu _ ?_ _ _ (by omega)
  intro q hq
  obtain ⟨q', hq', rfl⟩ := List.mem_map.mp hq
  obtain ⟨e', he'⟩ := openLines_mu hreg _ _ _ (fun q hq => hreg.names _ _ _ _ hex q.1 (List.mem_map.mpr ⟨q, hq, rfl⟩))
    (fun t l ht hlf => ⟨_, (hcan _ _ t l ht hlf).1⟩) hop q' hq'
  exact ⟨e', he'⟩

theorem cellLoop_good'' {mix : Nat → ℝ → Outcome (Mix ℝ)} (hc : Consistent env mix) (hreg : Regular env)
    (ha : Answers b env known) (hI : IntraAnswers b env) (hX : InterAnswers b env) (hn : NotNegative env) {m e w : ℝ}
    {rd : RayData ℝ} (hrd : rayData env o m e w = .ok rd) (req : Request) (hk : known req.element)
    (hp : Plain req.element.toList) (thr : ℝ) (factors : SMap Str (Factor ℝ))
    (hex : env.excite req.element rd.energy rd.weight = .ok factors) :
    ∀ (ls : List (LayerData ℝ)) (i : Nat) (res : Result ℝ), env.layers.drop i = ls → Canon env res →
      Good b (cellLoop env o rd req thr factors i ls res)
  | [], _, _, _, _ => trivial
  | l :: ls, i, res, hd, hcan => by
    have hl : env.layers[i]? = some l := by
      have := congrArg List.head? hd
      simpa [List.head?_drop] using this
    have hd' : env.layers.drop (i + 1) = ls := by
      have := congrArg List.tail hd
      simpa [List.tail_drop] using this
    unfold cellLoop
    refine (cell_good'' hc hreg ha hI hX hn hrd req hk thr factors hex i l hl res hcan).bind fun r hr => ?_
    exact cellLoop_good'' hc hreg ha hI hX hn hrd req hk hp thr factors hex ls (i + 1) r hd'
      (cell_amount hc hreg o rd req thr factors i l hl res r hp hex hcan hr).1

theorem requestLoop_good'' {mix : Nat → ℝ → Outcome (Mix ℝ)} (hc : Consistent env mix) (hreg : Regular env)
    (ha : Answers b env known) (hI : IntraAnswers b env) (hX : InterAnswers b env) (hn : NotNegative env) {m e w : ℝ}
    {rd : RayData ℝ} (hrd : rayData env o m e w = .ok rd) : ∀ (reqs : List Request),
    (∀ q ∈ reqs, known q.element ∧ (q.family = "" → b = true) ∧ Plain q.element.toList) →
    ∀ (n : Nat) (thrs : List ℝ) (res : Result ℝ), Canon env res →
      Good b (requestLoop env o rd n (reqs.map .ok) thrs res) ∧
      ∀ x, requestLoop env o rd n (reqs.map .ok) thrs res = .ok x → Canon env x.2
  | [], _, _, _, _, hcan => ⟨trivial, fun x h => by
      simp only [List.map_nil, requestLoop, Outcome.ok.injEq] at h
      subst h
      exact hcan⟩
  | q :: reqs, h, n, thrs, res, hcan => by
    obtain ⟨hk, hf, hp⟩ := h q (by simp)
    have h' : ∀ q ∈ reqs, known q.element ∧ (q.family = "" → b = true) ∧ Plain q.element.toList :=
      fun q hq => h q (by simp [hq])
    have ih := requestLoop_good'' hc hreg ha hI hX hn hrd reqs h'
    have hcell : ∀ thr fs, env.excite q.element rd.energy rd.weight = .ok fs →
        Good b (cellLoop env o rd q thr fs 0 env.layers res) ∧
        ∀ r, cellLoop env o rd q thr fs 0 env.layers res = .ok r → Canon env r := by
      intro thr fs hex
      exact ⟨cellLoop_good'' hc hreg ha hI hX hn hrd q hk hp thr fs hex _ 0 res rfl hcan,
        fun r hr => (cellLoop_amount hc hreg o rd q thr fs hp hex _ 0 res r rfl hcan hr).1⟩
    simp only [List.map_cons, requestLoop, Outcome.ok_bind]
    constructor
    · refine Good.bind ?_ fun x _ => ?_
      · unfold thresholdOf
        refine Good.ite (fun he => hf he) fun _ => ?_
        split
        · trivial
        · exact (ha.threshold _ hk _).bind fun t _ => trivial
      · refine Good.ite (fun _ => (ih _ _ _ hcan).1) (fun _ => ?_)
        refine (ha.excite _ hk _ _).bind fun fs hex => ?_
        exact (hcell _ fs hex).1.bind fun r hr => (ih _ _ _ ((hcell _ fs hex).2 r hr)).1
    · intro x hx
      obtain ⟨y, h2, hx⟩ := Outcome.bind_eq_ok.mp hx
      split_ifs at hx
      · exact (ih _ _ _ hcan).2 x hx
      · obtain ⟨fs, h3, hx⟩ := Outcome.bind_eq_ok.mp hx
        obtain ⟨r, h4, hx⟩ := Outcome.bind_eq_ok.mp hx
        exact (ih _ _ _ ((hcell _ fs h3).2 r h4)).2 x hx

theorem rayLoop_good'' {mix : Nat → ℝ → Outcome (Mix ℝ)} (hc : Consistent env mix) (hreg : Regular env)
    (ha : Answers b env known) (hI : IntraAnswers b env) (hX : InterAnswers b env) (hn : NotNegative env) (reqs : List Request)
    (hq : ∀ q ∈ reqs, known q.element ∧ (q.family = "" → b = true) ∧ Plain q.element.toList) :
    ∀ (rays : List (ℝ × ℝ)) (thrs : List ℝ) (m : ℝ) (res : Result ℝ), Canon env res →
      Good b (rayLoop env o (reqs.map .ok) rays thrs m res)
  | [], _, _, _, _ => trivial
  | (e, w) :: rays, thrs, m, res, hcan => by
    unfold rayLoop
    dsimp only
    split_ifs
    · exact rayLoop_good'' hc hreg ha hI hX hn reqs hq rays _ _ _ hcan
    · refine (rayData_good ha _ e w).bind fun rd hrd => ?_
      have := requestLoop_good'' hc hreg ha hI hX hn hrd reqs hq 0 thrs res hcan
      exact this.1.bind fun x hx => rayLoop_good'' hc hreg ha hI hX hn reqs hq rays _ _ _ (this.2 x hx)

end loops

/-! ## The call -/

section api

variable {R : Type} {pf : String → Outcome (SMap String ℝ)} {fuel : Nat} {L : Library ℝ}
  {srt : List (String × ℝ) → List (String × ℝ)} {c : Config ℝ R} {g : Bool}

/-- The mass attenuation coefficients of layer `i` (which is `l`) that the library can compute, at any energy. -/
def Coefficient (pf : String → Outcome (SMap String ℝ)) (fuel : Nat) (L : Library ℝ) (c : Config ℝ R) (i : Nat) (l : Layer ℝ)
    (v : ℝ) : Prop :=
  ∃ e m, layerMu pf fuel L c l e (sampleComposition pf fuel L c i) = .ok m ∧ m.total = v

/-- Layer `i` is thick for all its coefficients: its self absorption exceeds 10, and if there are layers below, it lets less
than a thousandth of each of its lines through. -/
def ThickLayer (pf : String → Outcome (SMap String ℝ)) (fuel : Nat) (L : Library ℝ) (c : Config ℝ R) (i : Nat) (l : Layer ℝ) :
    Prop :=
  ∃ B, 0 < B ∧ (∀ v, Coefficient pf fuel L c i l v → B ≤ v) ∧
    10 < (B / sinIn c + B / sinOut c) * (l.density * l.thickness) ∧
    (i + 1 < c.sample.length → Real.exp (-(B * (l.density * l.thickness) / sinOut c)) < 1 / 1000)

/-- Layer `i` is thin for all its coefficients, which are positive and, seen by the detector, differ from one another. -/
def ThinLayer (pf : String → Outcome (SMap String ℝ)) (fuel : Nat) (L : Library ℝ) (c : Config ℝ R) (i : Nat) (l : Layer ℝ) :
    Prop :=
  ∃ A, (∀ v, Coefficient pf fuel L c i l v → 0 < v ∧ v ≤ A) ∧
    (A / (99999 / 100000 * sinIn c) + A / sinOut c) * (l.density * l.thickness) < 0.01 ∧
    (i + 1 < c.sample.length → ∀ v w, Coefficient pf fuel L c i l v → Coefficient pf fuel L c i l w → v / sinOut c ≠ w)

/-- A thin target has no secondary excitation. -/
theorem deBoerL0_thin {mu1 mu2 muj density thickness : ℝ} (h1 : 0 < mu1) (h2 : 0 < mu2) (hj : 0 < muj)
    (hd : (mu1 + mu2) * (thickness * density) < 0.01) : Good false (MathFn.deBoerL0 mu1 mu2 muj density thickness) := by
  unfold MathFn.deBoerL0
  rw [if_neg (by push Not; exact ⟨h1, h2, hj⟩)]
  dsimp only
  rw [if_neg (by push Not; linarith), if_pos hd]
  trivial

/-- **C77** With secondary excitation the calculation returns for samples of any number of layers if each is thick or thin for
all its coefficients, whatever the beam and the requests. -/
theorem C77_thick_or_thin_layers_return (hS : SoundLibrary pf fuel L) (hL : Responds false pf L)
    (hr : Ready false pf fuel L c g) (hs : Library.SortsByEnergy srt) (o : Options ℝ) (beam : Beam ℝ) (reqs : List Request)
    (hq : ∀ q ∈ reqs, Known L q.element ∧ q.family ≠ "" ∧ ' ' ∉ q.element.toList)
    (h1 : 0 < sinIn c) (h2 : 0 < sinOut c)
    (hlay : ∀ i l, c.sample[i]? = some l → ThickLayer pf fuel L c i l ∨ ThinLayer pf fuel L c i l) :
    ∃ r, fluorescence pf fuel L srt c o g beam (reqs.map .ok) = .ok r := by
  rw [← Outcome.good_false_iff]
  unfold fluorescence
  refine (compositions_good c.sample hr.sample).bind fun comps hc => ?_
  refine (filterLoop_good hL c.beamFilters _ (fun l hl =>
    ⟨hr.outer l (by simp [hl]), hr.thick l (by simp [hl])⟩)).bind fun rays _ => ?_
  refine (geometricLoop_good hr.reference c.sample 0 (by simp)).bind fun geoms hg => ?_
  have ha := answers (srt := srt) hL hr hs hc hg
  have hlen : (envOf pf fuel L srt c comps geoms).layers.length = c.sample.length := sample_length hc hg
  have hcoef : ∀ i l e m, c.sample[i]? = some l → (envOf pf fuel L srt c comps geoms).mu i e = .ok m →
      Coefficient pf fuel L c i l m := by
    intro i l e m hl hm
    change (do let l ← vget c.sample i; let m ← vget comps i; let r ← layerMu pf fuel L c l e m; return r.total) = _ at hm
    obtain ⟨l', x1, hm⟩ := Outcome.bind_eq_ok.mp hm
    obtain ⟨q, x2, hm⟩ := Outcome.bind_eq_ok.mp hm
    obtain ⟨r, x3, hm⟩ := Outcome.bind_eq_ok.mp hm
    simp only [Outcome.pure_eq, Outcome.ok.injEq] at hm
    rw [vget_ok] at x1 x2
    have hl' : l' = l := by
      rw [hl] at x1
      simpa using x1.symm
    obtain ⟨-, a2⟩ := compositions_get _ _ hc
    obtain ⟨q', b1, b2⟩ := a2 i l' x1
    rw [x2] at b1
    cases b1
    subst hl'
    exact ⟨e, r, by rw [sampleComposition_eq x1 b2]; exact x3, hm⟩
  have hmass : ∀ (i : Nat) (l : Layer ℝ), c.sample[i]? = some l → 0 < l.density * l.thickness := by
    intro i l hl
    have := hr.thick l (by simp [List.mem_of_getElem? hl])
    simpa using this
  have hposc : ∀ i l v, c.sample[i]? = some l → Coefficient pf fuel L c i l v → 0 < v := by
    intro i l v hl hv
    rcases hlay i l hl with ⟨B, b1, b2, -, -⟩ | ⟨A, a1, -, -⟩
    · exact lt_of_lt_of_le b1 (b2 v hv)
    · exact (a1 v hv).1
  have hlay' : ∀ (i : Nat) (l' : LayerData ℝ), (envOf pf fuel L srt c comps geoms).layers[i]? = some l' → ∃ l : Layer ℝ, c.sample[i]? = some l ∧
      l'.density = l.density ∧ l'.thickness = l.thickness := by
    intro i l' hl'
    obtain ⟨l0, q, x1, x2, x3, x4⟩ := layers_get_inv (srt := srt) hc hg i l' hl'
    exact ⟨l0, x1, by rw [x4], by rw [x4]⟩
  have hnn : NotNegative (envOf pf fuel L srt c comps geoms) := by
    refine ⟨?_, ?_⟩
    · intro i e m hm
      have hm' := hm
      change (do let l ← vget c.sample i; let m ← vget comps i; let r ← layerMu pf fuel L c l e m; return r.total) = _ at hm'
      obtain ⟨l', x1, -⟩ := Outcome.bind_eq_ok.mp hm'
      exact (hposc i l' m (vget_ok.1 x1) (hcoef i l' e m (vget_ok.1 x1) hm)).le
    · intro i l' hl'
      obtain ⟨l, x1, x2, x3⟩ := hlay' i l' hl'
      rw [x2, x3]
      exact (hmass i l x1).le
  have hI : IntraAnswers false (envOf pf fuel L srt c comps geoms) := by
    intro i l' hl' e1 e2 e3 m1 m2 m3 hm1 hm2 hm3
    obtain ⟨l, x1, x2, x3⟩ := hlay' i l' hl'
    have k1 := hcoef i l _ _ x1 hm1
    have k2 := hcoef i l _ _ x1 hm2
    have k3 := hcoef i l _ _ x1 hm3
    have p1 := hposc i l _ x1 k1
    have p2 := hposc i l _ x1 k2
    have p3 := hposc i l _ x1 k3
    have hm := hmass i l x1
    have hd : l'.thickness * l'.density = l.density * l.thickness := by rw [x2, x3]; ring
    have q1 : 0 < m1 / sinIn c := div_pos p1 h1
    have q2 : 0 < m2 / sinOut c := div_pos p2 h2
    have q3 : m1 / sinIn c ≤ m1 / (99999 / 100000 * sinIn c) := by
      rw [muTotal_sum, le_div_iff₀ (by norm_num)]
      linarith
    rcases hlay i l x1 with ⟨B, b1, b2, b3, -⟩ | ⟨A, a1, a2, -⟩
    · have d1 : B / sinIn c ≤ m1 / sinIn c := div_le_div_of_nonneg_right (b2 _ k1) h1.le
      have d2 : B / sinOut c ≤ m2 / sinOut c := div_le_div_of_nonneg_right (b2 _ k2) h2.le
      have big : ∀ a b : ℝ, B / sinIn c + B / sinOut c ≤ a + b → 10 < (a + b) * (l'.thickness * l'.density) := by
        intro a b hab
        rw [hd]
        exact lt_of_lt_of_le b3 (mul_le_mul_of_nonneg_right hab hm.le)
      have t1 := big (m1 / sinIn c) (m2 / sinOut c) (by linarith)
      have t2 := big (m2 / sinOut c) (m1 / (99999 / 100000 * sinIn c)) (by linarith)
      have t3 := big (m2 / sinOut c) (m1 / sinIn c) (by linarith)
      exact ⟨deBoerL0_thick q1 q2 p3 t1, deBoerL0_thick q2 (lt_of_lt_of_le q1 q3) p3 t2, deBoerL0_thick q2 q1 p3 t3⟩
    · have hw : 0 < 99999 / 100000 * sinIn c := by positivity
      have d1 : m1 / (99999 / 100000 * sinIn c) ≤ A / (99999 / 100000 * sinIn c) :=
        div_le_div_of_nonneg_right (a1 _ k1).2 hw.le
      have d2 : m2 / sinOut c ≤ A / sinOut c := div_le_div_of_nonneg_right (a1 _ k2).2 h2.le
      have small : ∀ a b : ℝ, a + b ≤ A / (99999 / 100000 * sinIn c) + A / sinOut c →
          (a + b) * (l'.thickness * l'.density) < 0.01 := by
        intro a b hab
        rw [hd]
        exact lt_of_le_of_lt (mul_le_mul_of_nonneg_right hab hm.le) a2
      have t1 := small (m1 / sinIn c) (m2 / sinOut c) (by linarith)
      have t2 := small (m2 / sinOut c) (m1 / (99999 / 100000 * sinIn c)) (by linarith)
      have t3 := small (m2 / sinOut c) (m1 / sinIn c) (by linarith)
      exact ⟨deBoerL0_thin q1 q2 p3 t1, deBoerL0_thin q2 (lt_of_lt_of_le q1 q3) p3 t2, deBoerL0_thin q2 q1 p3 t3⟩
  have hX : InterAnswers false (envOf pf fuel L srt c comps geoms) := by
    intro i j l1' l2' hl1' hl2' e1 e2 e3 m2 mT mi mj mub hm2 hmT hmi hmj hmub
    obtain ⟨l1, x1, x2, x3⟩ := hlay' i l1' hl1'
    obtain ⟨l2, y1, y2, y3⟩ := hlay' j l2' hl2'
    have kT := hcoef i l1 _ _ x1 hmT
    have ki := hcoef i l1 _ _ x1 hmi
    have p2 := hposc j l2 _ y1 (hcoef j l2 _ _ y1 hm2)
    have pT := hposc i l1 _ x1 kT
    have pi' := hposc i l1 _ x1 ki
    have pj := hposc j l2 _ y1 (hcoef j l2 _ _ y1 hmj)
    have D1 := hmass i l1 x1
    have D2 := hmass j l2 y1
    rw [x2, x3, y2, y3]
    have hw : 0 < 99999 / 100000 * sinIn c := by positivity
    refine ⟨fun hij hg => ?_, fun hji => ?_⟩
    · have hne : mT / sinOut c ≠ mi := by
        rcases hlay i l1 x1 with ⟨B, b1, b2, -, b4⟩ | ⟨A, -, -, a3⟩
        · exfalso
          apply hg
          have hj : j < c.sample.length := (List.getElem?_eq_some_iff.mp y1).1
          refine lt_of_le_of_lt (Real.exp_le_exp.2 ?_) (b4 (by omega))
          have hB := b2 _ kT
          have : B * (l1.density * l1.thickness) / sinOut c ≤ mT * (l1.density * l1.thickness) / sinOut c :=
            div_le_div_of_nonneg_right (mul_le_mul_of_nonneg_right hB D1.le) h2.le
          show -mT * l1.density * l1.thickness / sinOut c ≤ _
          rw [show -mT * l1.density * l1.thickness / sinOut c = -(mT * (l1.density * l1.thickness) / sinOut c) by ring]
          linarith
        · have hj : j < c.sample.length := (List.getElem?_eq_some_iff.mp y1).1
          exact a3 (by omega) _ _ kT ki
      have good : ∀ p, 0 < p → Good false (MathFn.deBoerX p (mT / sinOut c) (l1.density * l1.thickness)
          (l2.density * l2.thickness) mi mj mub) := by
        intro p hp
        obtain ⟨v, hv, -⟩ := MathFn.C137_not_negative_partial hp (div_pos pT h2) pi' pj hne hmub D1 D2.le
        rw [hv]
        trivial
      exact ⟨good _ (div_pos p2 h1), good _ (div_pos p2 hw)⟩
    · have good : ∀ p, p < 0 → p ≠ -mj → Good false (MathFn.deBoerX p (-mT / sinOut c) (l1.density * l1.thickness)
          (l2.density * l2.thickness) mi mj mub) := by
        intro p hp hpm
        obtain ⟨v, hv, -⟩ := MathFn.C137_not_negative_downwards_partial hp (div_neg_of_neg_of_pos (by linarith) h2 :
          -mT / sinOut c < 0) pi' pj hpm hmub D1.le D2
        rw [hv]
        trivial
      refine Good.ite (fun he => good _ (div_neg_of_neg_of_pos (by linarith) hw) ?_)
        (fun he => good _ (div_neg_of_neg_of_pos (by linarith) h1) ?_)
      · intro hh
        change m2 / sinIn c = mj at he
        have e1 : m2 / (99999 / 100000 * sinIn c) = mj := by
          have := neg_inj.1 ((neg_div _ _).symm.trans hh)
          exact this
        rw [muTotal_sum, he, div_eq_iff (by norm_num)] at e1
        linarith
      · intro hh
        exact he (neg_inj.1 ((neg_div _ _).symm.trans hh))
  unfold calculate
  exact (rayLoop_good'' (env_consistent hS) (env_regular hS) ha hI hX hnn reqs
    (fun q h => ⟨Or.inr (hq q h).1, fun hf => absurd hf (hq q h).2.1, (hq q h).2.2⟩) _ _ _ _
    (fun k i t l _ hh => by cases hh)).bind fun r _ => trivial

end api

end Multilayer
end Fisx
