import Verif.MultilayerProps

/-!
# Property C46: `getMultilayerFluorescence` is additive over the rays; C54: and over the requests
-/

set_option linter.unusedSectionVars false

namespace Fisx
namespace Multilayer

open Xrf (Request)

variable {K : Type} [Field K] [LinearOrder K]

/-! ### The contributions to one line do not depend on the other lines -/

/-- A function of the lines that only looks at the coefficient. -/
def OnlyMu (f : Str → Tmp K → Outcome (Option K)) : Prop := ∀ t p q, p.mu = q.mu → f t p = f t q

theorem intra_onlyMu (env : Env K) (l : LayerData K) (muIn frac : K) (em : Emission K) (fs : SMap Str (Factor K)) :
    OnlyMu (intra env l muIn frac em fs) := by
  intro t p q h
  unfold intra
  simp only [h]

theorem inter_onlyMu (env : Env K) (rd : RayData K) (i j : Nat) (l1 l2 : LayerData K) (mu2 frac : K) (em : Emission K)
    (fs : SMap Str (Factor K)) : OnlyMu (inter env rd i j l1 l2 mu2 frac em fs) := by
  intro t p q h
  unfold inter
  simp only [h]

theorem lineLoop_names {f : Str → Tmp K → Outcome (Option K)} {name : Str} :
    ∀ {L : List (Str × Tmp K)} {cs : List (Contribution K)}, lineLoop f name L = .ok cs →
      ∀ c ∈ cs, c.1 ∈ L.map Prod.fst ∧ c.2.1 = name := by
  intro L
  induction L with
  | nil =>
    intro cs h c hc
    simp only [lineLoop, Outcome.ok.injEq] at h
    subst h; simp at hc
  | cons x rest ih =>
    obtain ⟨t, p⟩ := x
    intro cs h c hc
    rw [lineLoop] at h
    obtain ⟨v, _, h⟩ := Outcome.bind_eq_ok.mp h
    obtain ⟨r, h2, h⟩ := Outcome.bind_eq_ok.mp h
    cases v with
    | none =>
      simp only [Outcome.pure_eq, Outcome.ok.injEq] at h
      subst h
      exact ⟨List.mem_cons_of_mem _ (ih h2 c hc).1, (ih h2 c hc).2⟩
    | some v =>
      simp only [Outcome.pure_eq, Outcome.ok.injEq] at h
      subst h
      rcases List.mem_cons.mp hc with rfl | hc
      · exact ⟨List.mem_cons_self .., rfl⟩
      · exact ⟨List.mem_cons_of_mem _ (ih h2 c hc).1, (ih h2 c hc).2⟩

theorem lineLoop_single {f : Str → Tmp K → Outcome (Option K)} (hf : OnlyMu f) {name : Str} {t : Str} {p q : Tmp K}
    (hpq : p.mu = q.mu) : ∀ {L : List (Str × Tmp K)} {cs : List (Contribution K)}, (L.map Prod.fst).Nodup →
      (t, p) ∈ L → lineLoop f name L = .ok cs →
      lineLoop f name [(t, q)] = .ok (cs.filter (fun c => decide (c.1 = t))) := by
  intro L
  induction L with
  | nil => intro cs _ h; simp at h
  | cons x rest ih =>
    obtain ⟨t', p'⟩ := x
    intro cs hnd hm h
    rw [List.map_cons, List.nodup_cons] at hnd
    rw [lineLoop] at h
    obtain ⟨v, h1, h⟩ := Outcome.bind_eq_ok.mp h
    obtain ⟨r, h2, h⟩ := Outcome.bind_eq_ok.mp h
    rcases List.mem_cons.mp hm with hm | hm
    · simp only [Prod.mk.injEq] at hm
      obtain ⟨rfl, rfl⟩ := hm
      have hr : r.filter (fun c => decide (c.1 = t)) = [] := by
        rw [List.filter_eq_nil_iff]
        intro c hc
        simp only [decide_eq_true_eq]
        rintro rfl
        exact hnd.1 (lineLoop_names h2 c hc).1
      rw [lineLoop, ← hf t p q hpq, h1]
      cases v with
      | none =>
        simp only [Outcome.pure_eq, Outcome.ok.injEq] at h
        subst h
        simp [lineLoop, hr]
      | some v =>
        simp only [Outcome.pure_eq, Outcome.ok.injEq] at h
        subst h
        simp [lineLoop, hr]
    · have hne : t' ≠ t := by
        rintro rfl
        exact hnd.1 (List.mem_map.mpr ⟨_, hm, rfl⟩)
      have := ih hnd.2 hm h2
      rw [this]
      cases v with
      | none =>
        simp only [Outcome.pure_eq, Outcome.ok.injEq] at h
        subst h
        rfl
      | some v =>
        simp only [Outcome.pure_eq, Outcome.ok.injEq] at h
        subst h
        rw [List.filter_cons, if_neg (by simpa using hne)]

theorem emissionLoop_single (env : Env K) (element : String) (thr : K) (j : Nat)
    {f : Emission K → SMap Str (Factor K) → Str → Tmp K → Outcome (Option K)} (hf : ∀ em fs, OnlyMu (f em fs))
    {t : Str} {p q : Tmp K} (hpq : p.mu = q.mu) {L : List (Str × Tmp K)} (hnd : (L.map Prod.fst).Nodup)
    (hm : (t, p) ∈ L) : ∀ {ems : List (Emission K)} {cs : List (Contribution K)},
      emissionLoop env element thr j L f ems = .ok cs →
      emissionLoop env element thr j [(t, q)] f ems = .ok (cs.filter (fun c => decide (c.1 = t))) := by
  intro ems
  induction ems with
  | nil =>
    intro cs h
    simp only [emissionLoop, Outcome.ok.injEq] at h
    subst h; rfl
  | cons em rest ih =>
    intro cs h
    rw [emissionLoop] at h ⊢
    split at h
    · rename_i hlt
      rw [if_pos hlt]
      exact ih h
    · rename_i hlt
      rw [if_neg hlt]
      obtain ⟨fs, h1, h⟩ := Outcome.bind_eq_ok.mp h
      obtain ⟨a, h2, h⟩ := Outcome.bind_eq_ok.mp h
      obtain ⟨r, h3, h⟩ := Outcome.bind_eq_ok.mp h
      simp only [Outcome.pure_eq, Outcome.ok.injEq] at h
      subst h
      rw [h1, Outcome.ok_bind, lineLoop_single (hf em fs) hpq hnd hm h2, Outcome.ok_bind, ih h3, Outcome.ok_bind,
        List.filter_append]
      rfl

theorem secondaryLoop_single (env : Env K) (rd : RayData K) (element : String) (thr : K) (i : Nat) (l : LayerData K)
    (muIn lw frac : K) {t : Str} {p q : Tmp K} (hpq : p.mu = q.mu) {L : List (Str × Tmp K)}
    (hnd : (L.map Prod.fst).Nodup) (hm : (t, p) ∈ L) : ∀ (n j : Nat) {cs : List (Contribution K)},
      secondaryLoop env rd element thr i l muIn lw frac L j n = .ok cs →
      secondaryLoop env rd element thr i l muIn lw frac [(t, q)] j n =
        .ok (cs.filter (fun c => decide (c.1 = t))) := by
  intro n
  induction n with
  | zero =>
    intro j cs h
    simp only [secondaryLoop, Outcome.ok.injEq] at h
    subst h; rfl
  | succ n ih =>
    intro j cs h
    rw [secondaryLoop] at h ⊢
    obtain ⟨ems, h1, h⟩ := Outcome.bind_eq_ok.mp h
    obtain ⟨pp, h2, h⟩ := Outcome.bind_eq_ok.mp h
    obtain ⟨l2, h3, h⟩ := Outcome.bind_eq_ok.mp h
    obtain ⟨a, h4, h⟩ := Outcome.bind_eq_ok.mp h
    obtain ⟨r, h5, h⟩ := Outcome.bind_eq_ok.mp h
    simp only [Outcome.pure_eq, Outcome.ok.injEq] at h
    subst h
    rw [h1, Outcome.ok_bind, h2, Outcome.ok_bind, h3, Outcome.ok_bind]
    have h6 : (if i = j then emissionLoop env element thr j [(t, q)] (intra env l muIn frac) ems
      else if pp.1 / lw < 1 / 10000 then .ok []
      else emissionLoop env element thr j [(t, q)] (inter env rd i j l l2 pp.2 frac) ems) =
        .ok (a.filter (fun c => decide (c.1 = t))) := by
      split at h4
      · rename_i hij
        rw [if_pos hij]
        exact emissionLoop_single env element thr j (fun em fs => intra_onlyMu env l muIn frac em fs) hpq hnd hm h4
      · rename_i hij
        rw [if_neg hij]
        split at h4
        · rename_i hw
          rw [if_pos hw]
          simp only [Outcome.ok.injEq] at h4
          subst h4; rfl
        · rename_i hw
          rw [if_neg hw]
          exact emissionLoop_single env element thr j (fun em fs => inter_onlyMu env rd i j l l2 pp.2 frac em fs)
            hpq hnd hm h4
    rw [h6, Outcome.ok_bind, ih (j + 1) h5, Outcome.ok_bind, List.filter_append]
    rfl

theorem cellContribs_single (env : Env K) (o : Options K) (rd : RayData K) (element : String) (thr : K) (i : Nat)
    (l : LayerData K) (muIn lw frac : K) {t : Str} {p q : Tmp K} (hpq : p.mu = q.mu) {L : List (Str × Tmp K)}
    (hnd : (L.map Prod.fst).Nodup) (hm : (t, p) ∈ L) {cs : List (Contribution K)}
    (h : cellContribs env o rd element thr i l muIn lw frac L = .ok cs) :
    cellContribs env o rd element thr i l muIn lw frac [(t, q)] = .ok (cs.filter (fun c => decide (c.1 = t))) := by
  unfold cellContribs at h ⊢
  split at h
  · rename_i hs
    rw [if_pos hs]
    exact secondaryLoop_single env rd element thr i l muIn lw frac hpq hnd hm _ _ h
  · rename_i hs
    rw [if_neg hs]
    simp only [Outcome.ok.injEq] at h
    subst h; rfl

/-! ### The contributions do not depend on what is left out of the emissions nor on the cache -/

/-- The values of a function on a list, in order; the first failure is the outcome. -/
def collect {α β : Type} (f : α → Outcome β) : List α → Outcome (List β)
  | [] => .ok []
  | a :: rest => do
    let b ← f a
    let bs ← collect f rest
    return b :: bs

theorem collect_ok {α β : Type} {f : α → Outcome β} : ∀ {l : List α} {bs : List β}, collect f l = .ok bs →
    List.Forall₂ (fun a b => f a = .ok b) l bs := by
  intro l
  induction l with
  | nil =>
    intro bs h
    simp only [collect, Outcome.ok.injEq] at h
    subst h; exact List.Forall₂.nil
  | cons a rest ih =>
    intro bs h
    rw [collect] at h
    obtain ⟨b, h1, h⟩ := Outcome.bind_eq_ok.mp h
    obtain ⟨bs', h2, h⟩ := Outcome.bind_eq_ok.mp h
    simp only [Outcome.pure_eq, Outcome.ok.injEq] at h
    subst h
    exact List.Forall₂.cons h1 (ih h2)

/-- The functions of the environment describe one sample: the coefficients at a list of energies are those at each of
them (`mix`), the energy of a line does not depend on what excites it, and no threshold is negative. -/
structure Consistent (env : Env K) (mix : Nat → K → Outcome (Mix K)) : Prop where
  mu : ∀ i e, env.mu i e = (mix i e >>= fun m => pure m.total)
  mus : ∀ i es ms, env.mus i es = .ok ms → collect (mix i) es = .ok ms
  energy : ∀ el e w fs e' w' fs' t f f', env.excite el e w = .ok fs → env.excite el e' w' = .ok fs' →
    SMap.find? fs t = some f → SMap.find? fs' t = some f' → f.energy = f'.energy
  threshold : ∀ el fam thr, env.threshold el fam = .ok thr → 0 ≤ thr

/-- The data of a ray without cache and with the emissions above a threshold only. -/
def RayData.core (rd : RayData K) (thr : K) : RayData K :=
  { rd with emissions := rd.emissions.map (fun l => l.filter (fun em => decide (¬ thr > em.energy)))
            cacheEnergies := [], cacheMus := [] }

/-- The cache holds the coefficients of the environment. -/
def CacheOk (env : Env K) (rd : RayData K) : Prop := ∀ i e m, cachedMu env rd i e = .ok m → env.mu i e = .ok m

theorem cacheLoop_spec {env : Env K} {mix : Nat → K → Outcome (Mix K)} (hc : Consistent env mix) (es : List K) :
    ∀ (n i : Nat) (cs : List (List K)), cacheLoop env es i n = .ok cs →
      ∀ j v, cs[j]? = some v → List.Forall₂ (fun e m => env.mu (i + j) e = .ok m) es v := by
  intro n
  induction n with
  | zero =>
    intro i cs h j v hv
    simp only [cacheLoop, Outcome.ok.injEq] at h
    subst h; simp at hv
  | succ n ih =>
    intro i cs h j v hv
    rw [cacheLoop] at h
    obtain ⟨ms, h1, h⟩ := Outcome.bind_eq_ok.mp h
    obtain ⟨r, h2, h⟩ := Outcome.bind_eq_ok.mp h
    simp only [Outcome.pure_eq, Outcome.ok.injEq] at h
    subst h
    cases j with
    | zero =>
      simp only [List.getElem?_cons_zero, Option.some.injEq] at hv
      subst hv
      replace h1 := hc.mus _ _ _ h1
      rw [List.forall₂_map_right_iff]
      refine (collect_ok h1).imp ?_
      intro e m hm
      rw [Nat.add_zero, hc.mu, hm]
      rfl
    | succ j =>
      rw [List.getElem?_cons_succ] at hv
      have := ih (i + 1) r h2 j v hv
      rwa [show i + (j + 1) = i + 1 + j by omega]

theorem cacheOk_of {env : Env K} {mix : Nat → K → Outcome (Mix K)} (hc : Consistent env mix) {rd : RayData K}
    (n : Nat) (h : cacheLoop env rd.cacheEnergies 0 n = .ok rd.cacheMus) : CacheOk env rd := by
  intro i e m hm
  unfold cachedMu at hm
  split at hm
  · rename_i he
    obtain ⟨v, h1, h2⟩ := Outcome.bind_eq_ok.mp hm
    have h3 : rd.cacheMus[i]? = some v := by
      unfold vget at h1
      split at h1
      · rename_i hx
        simp only [Outcome.ok.injEq] at h1
        subst h1; assumption
      · cases h1
    have h4 := cacheLoop_spec hc _ _ _ _ h i v h3
    rw [Nat.zero_add] at h4
    have hidx : rd.cacheEnergies.findIdx (fun x => decide (x = e)) < rd.cacheEnergies.length :=
      List.findIdx_lt_length_of_exists ⟨e, he, by simp⟩
    have h5 := List.findIdx_getElem (w := hidx)
    simp only [decide_eq_true_eq] at h5
    have h6 : v[rd.cacheEnergies.findIdx (fun x => decide (x = e))]? = some m := by
      unfold vget at h2
      split at h2
      · simp only [Outcome.ok.injEq] at h2
        subst h2; assumption
      · cases h2
    have hlen := h4.length_eq
    obtain ⟨hlt, h7⟩ := List.getElem?_eq_some_iff.mp h6
    have h8 := List.forall₂_iff_get.mp h4 |>.2 _ hidx hlt
    simp only [List.get_eq_getElem] at h8
    rw [h5, h7] at h8
    exact h8
  · exact hm

theorem cachedMu_core {env : Env K} {rd : RayData K} (hk : CacheOk env rd) (thr : K) {i : Nat} {e m : K}
    (h : cachedMu env rd i e = .ok m) : cachedMu env (rd.core thr) i e = .ok m := by
  unfold cachedMu
  rw [if_neg (by simp [RayData.core])]
  exact hk i e m h

theorem betweenLoop_core {env : Env K} {rd : RayData K} (hk : CacheOk env rd) (thr : K) {e : K} :
    ∀ (n b : Nat) (acc v : K), betweenLoop env rd e b n acc = .ok v → betweenLoop env (rd.core thr) e b n acc = .ok v := by
  intro n
  induction n with
  | zero => intro b acc v h; exact h
  | succ n ih =>
    intro b acc v h
    rw [betweenLoop] at h ⊢
    obtain ⟨l, h1, h⟩ := Outcome.bind_eq_ok.mp h
    obtain ⟨m, h2, h⟩ := Outcome.bind_eq_ok.mp h
    rw [h1, Outcome.ok_bind, cachedMu_core hk thr h2, Outcome.ok_bind]
    exact ih _ _ _ h

theorem inter_core {env : Env K} {rd : RayData K} (hk : CacheOk env rd) (thr : K) {i j : Nat} {l1 l2 : LayerData K}
    {mu2 frac : K} {em : Emission K} {fs : SMap Str (Factor K)} {t : Str} {p : Tmp K} {v : Option K}
    (h : inter env rd i j l1 l2 mu2 frac em fs t p = .ok v) :
    inter env (rd.core thr) i j l1 l2 mu2 frac em fs t p = .ok v := by
  unfold inter at h ⊢
  cases hf : fs.find? t with
  | none => simpa [hf] using h
  | some f =>
    simp only [hf] at h ⊢
    by_cases h1 : f.rate < 1 / 10 ^ 30
    · rw [if_pos h1] at h ⊢; exact h
    · rw [if_neg h1] at h ⊢
      obtain ⟨m, h2, h⟩ := Outcome.bind_eq_ok.mp h
      rw [cachedMu_core hk thr h2, Outcome.ok_bind]
      by_cases h3 : i < j
      · rw [if_pos h3] at h ⊢
        obtain ⟨b, h4, h⟩ := Outcome.bind_eq_ok.mp h
        rw [betweenLoop_core hk thr _ _ _ _ h4, Outcome.ok_bind]
        exact h
      · rw [if_neg h3] at h ⊢
        obtain ⟨b, h4, h⟩ := Outcome.bind_eq_ok.mp h
        rw [betweenLoop_core hk thr _ _ _ _ h4, Outcome.ok_bind]
        exact h

theorem lineLoop_mono {f g : Str → Tmp K → Outcome (Option K)} (hfg : ∀ t p v, f t p = .ok v → g t p = .ok v)
    {name : Str} : ∀ {L : List (Str × Tmp K)} {cs : List (Contribution K)}, lineLoop f name L = .ok cs →
      lineLoop g name L = .ok cs := by
  intro L
  induction L with
  | nil => intro cs h; exact h
  | cons x rest ih =>
    obtain ⟨t, p⟩ := x
    intro cs h
    rw [lineLoop] at h ⊢
    obtain ⟨v, h1, h⟩ := Outcome.bind_eq_ok.mp h
    obtain ⟨r, h2, h⟩ := Outcome.bind_eq_ok.mp h
    rw [hfg _ _ _ h1, Outcome.ok_bind, ih h2, Outcome.ok_bind]
    exact h

theorem emissionLoop_core (env : Env K) (element : String) (thr : K) (j : Nat) (L : List (Str × Tmp K))
    {f g : Emission K → SMap Str (Factor K) → Str → Tmp K → Outcome (Option K)}
    (hfg : ∀ em fs t p v, f em fs t p = .ok v → g em fs t p = .ok v) :
    ∀ {ems : List (Emission K)} {cs : List (Contribution K)}, emissionLoop env element thr j L f ems = .ok cs →
      emissionLoop env element thr j L g (ems.filter (fun em => decide (¬ thr > em.energy))) = .ok cs := by
  intro ems
  induction ems with
  | nil => intro cs h; exact h
  | cons em rest ih =>
    intro cs h
    rw [emissionLoop] at h
    split at h
    · rename_i hlt
      rw [List.filter_cons, if_neg (by simpa using hlt)]
      exact ih h
    · rename_i hlt
      rw [List.filter_cons, if_pos (by simpa using hlt), emissionLoop, if_neg hlt]
      obtain ⟨fs, h1, h⟩ := Outcome.bind_eq_ok.mp h
      obtain ⟨a, h2, h⟩ := Outcome.bind_eq_ok.mp h
      obtain ⟨r, h3, h⟩ := Outcome.bind_eq_ok.mp h
      rw [h1, Outcome.ok_bind, lineLoop_mono (hfg em fs) h2, Outcome.ok_bind, ih h3, Outcome.ok_bind]
      exact h

theorem vget_map {α β : Type} {f : α → β} {l : List α} {i : Nat} {a : α} (h : vget l i = .ok a) :
    vget (l.map f) i = .ok (f a) := by
  unfold vget at h ⊢
  rw [List.getElem?_map]
  cases hi : l[i]? with
  | none => rw [hi] at h; cases h
  | some b =>
    rw [hi] at h
    simp only [Outcome.ok.injEq] at h
    subst h; rfl

theorem secondaryLoop_core {env : Env K} {rd : RayData K} (hk : CacheOk env rd) (element : String) (thr : K) (i : Nat)
    (l : LayerData K) (muIn lw frac : K) (L : List (Str × Tmp K)) : ∀ (n j : Nat) {cs : List (Contribution K)},
      secondaryLoop env rd element thr i l muIn lw frac L j n = .ok cs →
      secondaryLoop env (rd.core thr) element thr i l muIn lw frac L j n = .ok cs := by
  intro n
  induction n with
  | zero => intro j cs h; exact h
  | succ n ih =>
    intro j cs h
    rw [secondaryLoop] at h ⊢
    obtain ⟨ems, h1, h⟩ := Outcome.bind_eq_ok.mp h
    obtain ⟨pp, h2, h⟩ := Outcome.bind_eq_ok.mp h
    obtain ⟨l2, h3, h⟩ := Outcome.bind_eq_ok.mp h
    obtain ⟨a, h4, h⟩ := Outcome.bind_eq_ok.mp h
    obtain ⟨r, h5, h⟩ := Outcome.bind_eq_ok.mp h
    have h1' : vget (rd.core thr).emissions j = .ok (ems.filter (fun em => decide (¬ thr > em.energy))) := vget_map h1
    rw [h1', Outcome.ok_bind, show (rd.core thr).incident = rd.incident from rfl, h2, Outcome.ok_bind, h3,
      Outcome.ok_bind]
    have h6 : (if i = j then emissionLoop env element thr j L (intra env l muIn frac)
          (ems.filter (fun em => decide (¬ thr > em.energy)))
      else if pp.1 / lw < 1 / 10000 then .ok []
      else emissionLoop env element thr j L (inter env (rd.core thr) i j l l2 pp.2 frac)
          (ems.filter (fun em => decide (¬ thr > em.energy)))) = .ok a := by
      split at h4
      · rename_i hij
        rw [if_pos hij]
        exact emissionLoop_core env element thr j L (fun _ _ _ _ _ h => h) h4
      · rename_i hij
        rw [if_neg hij]
        split at h4
        · rename_i hw
          rw [if_pos hw]
          exact h4
        · rename_i hw
          rw [if_neg hw]
          exact emissionLoop_core env element thr j L (fun _ _ _ _ _ h => inter_core hk thr h) h4
    rw [h6, Outcome.ok_bind, ih (j + 1) h5, Outcome.ok_bind]
    exact h

/-! ### The emissions of a ray -/

/-- The emissions of `c` times the beam. -/
def Emission.scale (c : K) (em : Emission K) : Emission K := { em with rate := c * em.rate }

/-- The data of the ray with `c` times the weight. -/
def RayData.scale (c : K) (rd : RayData K) : RayData K :=
  { rd with weight := c * rd.weight, emissions := rd.emissions.map (fun l => l.map (Emission.scale c)) }

/-- Name, energy and rate of an emission, for `c` times the beam. -/
def scaleRaw (c : K) (p : Str × K × K) : Str × K × K := (p.1, p.2.1, c * p.2.2)

/-- The emissions at or above a threshold. -/
def above (thr : K) (l : List (Str × K × K)) : List (Str × K × K) := l.filter (fun p => decide (¬ thr > p.2.1))

theorem familyLines_above (o : Options K) (m m' thr frac c w lw : K) (ele family : Str) (hm : m ≤ thr) (hm' : m' ≤ thr) :
    ∀ (fs : List (Str × Factor K)), above thr (familyLines o m' frac (c * w) lw ele family fs) =
      (above thr (familyLines o m frac w lw ele family fs)).map (scaleRaw c) := by
  intro fs
  induction fs with
  | nil => rfl
  | cons x rest ih =>
    obtain ⟨t, f⟩ := x
    rw [familyLines, familyLines]
    split
    · exact ih
    · split
      · exact ih
      · split
        · exact ih
        · by_cases h1 : thr > f.energy
          · have hd : ∀ (x : K) (L : List (Str × K × K)),
                above thr ((ele ++ ' ' :: t, f.energy, x) :: L) = above thr L := by
              intro x L
              unfold above
              rw [List.filter_cons, if_neg (by simpa using h1)]
            split
            · split
              · exact ih
              · rw [hd]; exact ih
            · split
              · rw [hd]; exact ih
              · rw [hd, hd]; exact ih
          · have h2 : ¬ f.energy < m := fun hh => h1 (lt_of_lt_of_le hh hm)
            have h2' : ¬ f.energy < m' := fun hh => h1 (lt_of_lt_of_le hh hm')
            have hd : ∀ (x : K) (L : List (Str × K × K)),
                above thr ((ele ++ ' ' :: t, f.energy, x) :: L) = (ele ++ ' ' :: t, f.energy, x) :: above thr L := by
              intro x L
              unfold above
              rw [List.filter_cons, if_pos (by simpa using h1)]
            rw [if_neg h2, if_neg h2', hd, hd, List.map_cons, ih]
            congr 1
            simp only [scaleRaw, Prod.mk.injEq, true_and]
            ring

theorem above_append (thr : K) (a b : List (Str × K × K)) : above thr (a ++ b) = above thr a ++ above thr b :=
  List.filter_append ..

theorem familiesLoop_above (env : Env K) (o : Options K) (m m' thr e c w lw : K) (comp : SMap String K) (hm : m ≤ thr)
    (hm' : m' ≤ thr) : ∀ (fam : List (String × K)) (a b : List (Str × K × K)),
      familiesLoop env o m e w lw comp fam = .ok a → familiesLoop env o m' e (c * w) lw comp fam = .ok b →
      above thr b = (above thr a).map (scaleRaw c) := by
  intro fam
  induction fam with
  | nil =>
    intro a b ha hb
    simp only [familiesLoop, Outcome.ok.injEq] at ha hb
    subst ha hb; rfl
  | cons f rest ih =>
    intro a b ha hb
    rw [familiesLoop] at ha hb
    obtain ⟨fs, h1, ha⟩ := Outcome.bind_eq_ok.mp ha
    obtain ⟨fs', h1', hb⟩ := Outcome.bind_eq_ok.mp hb
    rw [h1] at h1'
    simp only [Outcome.ok.injEq] at h1'
    subst h1'
    obtain ⟨ra, h2, ha⟩ := Outcome.bind_eq_ok.mp ha
    obtain ⟨rb, h2', hb⟩ := Outcome.bind_eq_ok.mp hb
    simp only [Outcome.pure_eq, Outcome.ok.injEq] at ha hb
    subst ha hb
    rw [above_append, above_append, List.map_append, ih ra rb h2 h2',
      familyLines_above o m m' thr _ c w lw _ _ hm hm']

/-- An emission with the given name, energy and rate, and the coefficient of the layer at its energy. -/
def EmOf (env : Env K) (i : Nat) (p : Str × K × K) (em : Emission K) : Prop :=
  em.name = p.1 ∧ em.energy = p.2.1 ∧ em.rate = p.2.2 ∧ env.mu i p.2.1 = .ok em.mu

theorem emOf_zip {env : Env K} {mix : Nat → K → Outcome (Mix K)} (hc : Consistent env mix) (i : Nat) :
    ∀ (L : List (Str × K × K)) (ms : List (Mix K)),
      List.Forall₂ (fun e m => mix i e = .ok m) (L.map (fun p => p.2.1)) ms →
      List.Forall₂ (EmOf env i) L
        (List.zipWith (fun p (m : Mix K) => { name := p.1, energy := p.2.1, rate := p.2.2, mu := m.total }) L ms) := by
  intro L
  induction L with
  | nil => intro ms h; exact List.Forall₂.nil
  | cons x rest ih =>
    intro ms h
    cases h with
    | cons h1 h2 =>
      rename_i m ms'
      rw [List.zipWith_cons_cons]
      refine List.Forall₂.cons ⟨rfl, rfl, rfl, ?_⟩ (ih _ h2)
      rw [hc.mu, h1]; rfl

theorem emOf_filter {env : Env K} {i : Nat} (thr : K) {L : List (Str × K × K)} {ems : List (Emission K)}
    (h : List.Forall₂ (EmOf env i) L ems) :
    List.Forall₂ (EmOf env i) (above thr L) (ems.filter (fun em => decide (¬ thr > em.energy))) := by
  induction h with
  | nil => exact List.Forall₂.nil
  | cons h1 h2 ih =>
    rename_i p em L' ems'
    unfold above
    rw [List.filter_cons, List.filter_cons, h1.2.1]
    split
    · exact List.Forall₂.cons h1 ih
    · exact ih

theorem emOf_scale {env : Env K} {i : Nat} (c : K) : ∀ {L : List (Str × K × K)} {a b : List (Emission K)},
    List.Forall₂ (EmOf env i) L a → List.Forall₂ (EmOf env i) (L.map (scaleRaw c)) b →
    b = a.map (Emission.scale c) := by
  intro L
  induction L with
  | nil =>
    intro a b ha hb
    cases ha; cases hb; rfl
  | cons p rest ih =>
    intro a b ha hb
    cases ha with
    | cons h1 h2 =>
      rw [List.map_cons] at hb
      cases hb with
      | cons h1' h2' =>
        rename_i x a' y b'
        rw [List.map_cons, ← ih h2 h2']
        congr 1
        obtain ⟨n1, n2, n3, n4⟩ := h1
        obtain ⟨m1, m2, m3, m4⟩ := h1'
        simp only [scaleRaw] at m1 m2 m3 m4
        rw [n4] at m4
        simp only [Outcome.ok.injEq] at m4
        cases x
        cases y
        simp only at n1 n2 n3 m1 m2 m3 m4
        subst n1 n2 n3 m1 m2 m3 m4
        rfl

theorem forall₂_concat {α β : Type} {R : α → β → Prop} {x : α} : ∀ {l : List α} {bs : List β},
    List.Forall₂ R (l ++ [x]) bs → ∃ b' b, bs = b' ++ [b] ∧ R x b := by
  intro l
  induction l with
  | nil =>
    intro bs h
    cases h with
    | cons h1 h2 => cases h2; exact ⟨[], _, rfl, h1⟩
  | cons a l ih =>
    intro bs h
    cases h with
    | cons h1 h2 =>
      obtain ⟨b', b, rfl, hb⟩ := ih h2
      exact ⟨_ :: b', b, rfl, hb⟩

theorem layerEmissions_spec {env : Env K} {mix : Nat → K → Outcome (Mix K)} (hc : Consistent env mix) (o : Options K)
    (m e w : K) (i : Nat) (l : LayerData K) (lw : K) (ems : List (Emission K))
    (h : layerEmissions env o m e w i l lw = .ok ems) :
    ∃ fam raw last, env.families i e = .ok fam ∧ familiesLoop env o m e w lw l.composition fam = .ok raw ∧
      mix i e = .ok last ∧
      List.Forall₂ (EmOf env i) (raw ++ [("coherent scattering".toList, e, (w * lw) * last.coherent)]) ems := by
  unfold layerEmissions at h
  obtain ⟨fam, h1, h⟩ := Outcome.bind_eq_ok.mp h
  obtain ⟨raw, h2, h⟩ := Outcome.bind_eq_ok.mp h
  obtain ⟨ms, h3, h⟩ := Outcome.bind_eq_ok.mp h
  replace h3 := hc.mus _ _ _ h3
  have h4 := collect_ok h3
  cases hl : ms.getLast? with
  | none => simp only [hl] at h; cases h
  | some last =>
    simp only [hl, Outcome.pure_eq, Outcome.ok.injEq] at h
    refine ⟨fam, raw, last, h1, h2, ?_, ?_⟩
    · obtain ⟨ms1, x, rfl, hx⟩ := forall₂_concat h4
      simp only [List.getLast?_append, List.getLast?_singleton, Option.some_or, Option.some.injEq] at hl
      subst hl
      exact hx
    · rw [← h]
      refine emOf_zip hc i _ ms ?_
      simpa using h4

theorem layerEmissions_scale {env : Env K} {mix : Nat → K → Outcome (Mix K)} (hc : Consistent env mix) (o : Options K)
    (m m' thr e c w : K) (hm : m ≤ thr) (hm' : m' ≤ thr) (i : Nat) (l : LayerData K) (lw : K) (a b : List (Emission K))
    (ha : layerEmissions env o m e w i l lw = .ok a) (hb : layerEmissions env o m' e (c * w) i l lw = .ok b) :
    b.filter (fun em => decide (¬ thr > em.energy)) =
      (a.filter (fun em => decide (¬ thr > em.energy))).map (Emission.scale c) := by
  obtain ⟨fam, raw, last, h1, h2, h3, h4⟩ := layerEmissions_spec hc o m e w i l lw a ha
  obtain ⟨fam', raw', last', h1', h2', h3', h4'⟩ := layerEmissions_spec hc o m' e (c * w) i l lw b hb
  rw [h1] at h1'
  rw [h3] at h3'
  simp only [Outcome.ok.injEq] at h1' h3'
  subst h1' h3'
  refine emOf_scale c (emOf_filter thr h4) ?_
  have := emOf_filter thr h4'
  rw [above_append] at this ⊢
  rw [familiesLoop_above env o m m' thr e c w lw _ hm hm' fam raw raw' h2 h2'] at this
  rw [List.map_append]
  convert this using 2
  unfold above
  simp only [List.filter_cons, List.filter_nil]
  split
  · simp only [List.map_cons, List.map_nil, scaleRaw, List.cons.injEq, Prod.mk.injEq, true_and, and_true]
    ring
  · rfl

theorem emissionsLoop_scale {env : Env K} {mix : Nat → K → Outcome (Mix K)} (hc : Consistent env mix) (o : Options K)
    (m m' thr e c w : K) (hm : m ≤ thr) (hm' : m' ≤ thr) : ∀ (ls : List (LayerData K)) (ps : List (K × K)) (i : Nat)
      (a b : List (List (Emission K))), emissionsLoop env o m e w i ls ps = .ok a →
      emissionsLoop env o m' e (c * w) i ls ps = .ok b →
      b.map (fun l => l.filter (fun em => decide (¬ thr > em.energy))) =
        (a.map (fun l => l.filter (fun em => decide (¬ thr > em.energy)))).map (fun l => l.map (Emission.scale c)) := by
  intro ls
  induction ls with
  | nil =>
    intro ps i a b ha hb
    simp only [emissionsLoop, Outcome.ok.injEq] at ha hb
    subst ha hb; rfl
  | cons l rest ih =>
    intro ps i a b ha hb
    cases ps with
    | nil =>
      simp only [emissionsLoop, Outcome.ok.injEq] at ha hb
      subst ha hb; rfl
    | cons p ps =>
      rw [emissionsLoop] at ha hb
      obtain ⟨em, h1, ha⟩ := Outcome.bind_eq_ok.mp ha
      obtain ⟨em', h1', hb⟩ := Outcome.bind_eq_ok.mp hb
      obtain ⟨ra, h2, ha⟩ := Outcome.bind_eq_ok.mp ha
      obtain ⟨rb, h2', hb⟩ := Outcome.bind_eq_ok.mp hb
      simp only [Outcome.pure_eq, Outcome.ok.injEq] at ha hb
      subst ha hb
      rw [List.map_cons, List.map_cons, List.map_cons, ih ps (i + 1) ra rb h2 h2',
        layerEmissions_scale hc o m m' thr e c w hm hm' i l p.1 em em' h1 h1']

theorem rayData_parts {env : Env K} {o : Options K} {m e w : K} {rd : RayData K} (h : rayData env o m e w = .ok rd) :
    rd.energy = e ∧ rd.weight = w ∧ incident env e 0 env.layers 0 = .ok rd.incident ∧
    (if o.secondary > 0 then emissionsLoop env o m e w 0 env.layers rd.incident else .ok []) = .ok rd.emissions ∧
    cacheLoop env rd.cacheEnergies 0 env.layers.length = .ok rd.cacheMus := by
  unfold rayData at h
  obtain ⟨inc, h1, h⟩ := Outcome.bind_eq_ok.mp h
  obtain ⟨ems, h2, h⟩ := Outcome.bind_eq_ok.mp h
  obtain ⟨cs, h3, h⟩ := Outcome.bind_eq_ok.mp h
  simp only [Outcome.pure_eq, Outcome.ok.injEq] at h
  subst h
  exact ⟨rfl, rfl, h1, h2, h3⟩

/-- The data of a ray above a threshold do not depend on what was left out, and scale with the weight. -/
theorem core_scale {env : Env K} {mix : Nat → K → Outcome (Mix K)} (hc : Consistent env mix) (o : Options K)
    (m m' thr e c w : K) (hm : m ≤ thr) (hm' : m' ≤ thr) (rd rd' : RayData K)
    (h : rayData env o m e w = .ok rd) (h' : rayData env o m' e (c * w) = .ok rd') :
    rd'.core thr = (rd.core thr).scale c := by
  obtain ⟨a1, a2, a3, a4, _⟩ := rayData_parts h
  obtain ⟨b1, b2, b3, b4, _⟩ := rayData_parts h'
  rw [a3] at b3
  simp only [Outcome.ok.injEq] at b3
  have hem : rd'.emissions.map (fun l => l.filter (fun em => decide (¬ thr > em.energy))) =
      (rd.emissions.map (fun l => l.filter (fun em => decide (¬ thr > em.energy)))).map
        (fun l => l.map (Emission.scale c)) := by
    rw [← b3] at b4
    split at a4
    · rename_i hs
      rw [if_pos hs] at b4
      exact emissionsLoop_scale hc o m m' thr e c w hm hm' _ _ _ _ _ a4 b4
    · rename_i hs
      rw [if_neg hs] at b4
      simp only [Outcome.ok.injEq] at a4 b4
      rw [← a4, ← b4]; rfl
  unfold RayData.core RayData.scale
  simp only [RayData.mk.injEq]
  exact ⟨b1.trans a1.symm, by rw [a2, b2], b3.symm, hem, trivial, trivial⟩

/-! ### Scaling of the contributions -/

/-- The contribution for `c` times the beam. -/
def scaleContrib (c : K) (x : Contribution K) : Contribution K := (x.1, x.2.1, c * x.2.2)

theorem intra_scale (env : Env K) (l : LayerData K) (muIn frac c : K) (em : Emission K) (fs : SMap Str (Factor K))
    (t : Str) (p : Tmp K) (v : Option K) (h : intra env l muIn frac em fs t p = .ok v) :
    intra env l muIn frac (em.scale c) fs t p = .ok (v.map (fun x => c * x)) := by
  unfold intra at h ⊢
  cases hf : fs.find? t with
  | none =>
    simp only [hf, Outcome.ok.injEq] at h ⊢
    subst h; rfl
  | some f =>
    have e1 : (em.scale c).mu = em.mu := rfl
    have e2 : (em.scale c).rate = c * em.rate := rfl
    simp only [hf] at h ⊢
    rw [e1, e2]
    obtain ⟨a, h1, h⟩ := Outcome.bind_eq_ok.mp h
    obtain ⟨b, h2, h⟩ := Outcome.bind_eq_ok.mp h
    simp only [Outcome.pure_eq, Outcome.ok.injEq] at h
    subst h
    rw [h1, Outcome.ok_bind, h2, Outcome.ok_bind]
    simp only [Outcome.pure_eq, Outcome.ok.injEq, Option.map_some, Option.some.injEq]
    ring

theorem betweenLoop_scale (env : Env K) (rd : RayData K) (c e : K) : ∀ (n b : Nat) (acc : K),
    betweenLoop env (rd.scale c) e b n acc = betweenLoop env rd e b n acc := by
  intro n
  induction n with
  | zero => intro b acc; rfl
  | succ n ih =>
    intro b acc
    rw [betweenLoop, betweenLoop]
    have : cachedMu env (rd.scale c) b e = cachedMu env rd b e := rfl
    rw [this]
    simp only [ih]

theorem inter_scale (env : Env K) (rd : RayData K) (i j : Nat) (l1 l2 : LayerData K) (mu2 frac c : K) (em : Emission K)
    (fs : SMap Str (Factor K)) (t : Str) (p : Tmp K) (v : Option K)
    (h : inter env rd i j l1 l2 mu2 frac em fs t p = .ok v) :
    inter env (rd.scale c) i j l1 l2 mu2 frac (em.scale c) fs t p = .ok (v.map (fun x => c * x)) := by
  have hcm : ∀ e, cachedMu env (rd.scale c) i e = cachedMu env rd i e := fun e => rfl
  unfold inter at h ⊢
  cases hf : fs.find? t with
  | none =>
    simp only [hf, Outcome.ok.injEq] at h ⊢
    subst h; rfl
  | some f =>
    have e1 : (em.scale c).mu = em.mu := rfl
    have e2 : (em.scale c).rate = c * em.rate := rfl
    have e3 : (em.scale c).energy = em.energy := rfl
    simp only [hf, hcm, betweenLoop_scale] at h ⊢
    rw [e1, e2, e3]
    by_cases h1 : f.rate < 1 / 10 ^ 30
    · rw [if_pos h1] at h ⊢
      simp only [Outcome.ok.injEq] at h ⊢
      subst h; rfl
    · rw [if_neg h1] at h ⊢
      obtain ⟨m, h2, h⟩ := Outcome.bind_eq_ok.mp h
      rw [h2, Outcome.ok_bind]
      by_cases h3 : i < j
      · rw [if_pos h3] at h ⊢
        obtain ⟨b, h4, h⟩ := Outcome.bind_eq_ok.mp h
        rw [h4, Outcome.ok_bind]
        by_cases h5 : env.exp (-p.mu * l1.density * l1.thickness / env.sinOut) < 1 / 1000
        · rw [if_pos h5] at h ⊢
          simp only [Outcome.pure_eq, Outcome.ok.injEq] at h ⊢
          subst h; rfl
        · rw [if_neg h5] at h ⊢
          obtain ⟨x, h6, h⟩ := Outcome.bind_eq_ok.mp h
          rw [h6, Outcome.ok_bind]
          simp only [Outcome.pure_eq, Outcome.ok.injEq] at h ⊢
          subst h
          simp only [Option.map_some, Option.some.injEq]
          ring
      · rw [if_neg h3] at h ⊢
        obtain ⟨b, h4, h⟩ := Outcome.bind_eq_ok.mp h
        rw [h4, Outcome.ok_bind]
        obtain ⟨x, h6, h⟩ := Outcome.bind_eq_ok.mp h
        rw [h6, Outcome.ok_bind]
        simp only [Outcome.pure_eq, Outcome.ok.injEq] at h ⊢
        subst h
        simp only [Option.map_some, Option.some.injEq]
        ring

theorem lineLoop_scale {f g : Str → Tmp K → Outcome (Option K)} (c : K)
    (hfg : ∀ t p v, f t p = .ok v → g t p = .ok (v.map (fun x => c * x))) {name : Str} :
    ∀ {L : List (Str × Tmp K)} {cs : List (Contribution K)}, lineLoop f name L = .ok cs →
      lineLoop g name L = .ok (cs.map (scaleContrib c)) := by
  intro L
  induction L with
  | nil =>
    intro cs h
    simp only [lineLoop, Outcome.ok.injEq] at h ⊢
    subst h; rfl
  | cons x rest ih =>
    obtain ⟨t, p⟩ := x
    intro cs h
    rw [lineLoop] at h ⊢
    obtain ⟨v, h1, h⟩ := Outcome.bind_eq_ok.mp h
    obtain ⟨r, h2, h⟩ := Outcome.bind_eq_ok.mp h
    rw [hfg _ _ _ h1, Outcome.ok_bind, ih h2, Outcome.ok_bind]
    cases v with
    | none =>
      simp only [Outcome.pure_eq, Outcome.ok.injEq, Option.map_none] at h ⊢
      subst h; rfl
    | some v =>
      simp only [Outcome.pure_eq, Outcome.ok.injEq, Option.map_some] at h ⊢
      subst h; rfl

theorem emissionLoop_scale (env : Env K) (element : String) (thr c : K) (j : Nat) (L : List (Str × Tmp K))
    {f g : Emission K → SMap Str (Factor K) → Str → Tmp K → Outcome (Option K)}
    (hfg : ∀ em fs t p v, f em fs t p = .ok v → g (em.scale c) fs t p = .ok (v.map (fun x => c * x))) :
    ∀ {ems : List (Emission K)} {cs : List (Contribution K)}, emissionLoop env element thr j L f ems = .ok cs →
      emissionLoop env element thr j L g (ems.map (Emission.scale c)) = .ok (cs.map (scaleContrib c)) := by
  intro ems
  induction ems with
  | nil =>
    intro cs h
    simp only [emissionLoop, Outcome.ok.injEq] at h
    subst h; rfl
  | cons em rest ih =>
    intro cs h
    rw [emissionLoop] at h
    rw [List.map_cons, emissionLoop]
    have he : (em.scale c).energy = em.energy := rfl
    rw [he]
    split at h
    · rename_i hlt
      rw [if_pos hlt]
      exact ih h
    · rename_i hlt
      rw [if_neg hlt]
      obtain ⟨fs, h1, h⟩ := Outcome.bind_eq_ok.mp h
      obtain ⟨a, h2, h⟩ := Outcome.bind_eq_ok.mp h
      obtain ⟨r, h3, h⟩ := Outcome.bind_eq_ok.mp h
      simp only [Outcome.pure_eq, Outcome.ok.injEq] at h
      subst h
      have hn : contribName (em.scale c) j = contribName em j := rfl
      rw [h1, Outcome.ok_bind, hn, lineLoop_scale c (hfg em fs) h2, Outcome.ok_bind, ih h3, Outcome.ok_bind,
        List.map_append]
      rfl

theorem secondaryLoop_scale (env : Env K) (rd : RayData K) (element : String) (thr c : K) (i : Nat)
    (l : LayerData K) (muIn lw frac : K) (L : List (Str × Tmp K)) : ∀ (n j : Nat) {cs : List (Contribution K)},
      secondaryLoop env rd element thr i l muIn lw frac L j n = .ok cs →
      secondaryLoop env (rd.scale c) element thr i l muIn lw frac L j n = .ok (cs.map (scaleContrib c)) := by
  intro n
  induction n with
  | zero =>
    intro j cs h
    simp only [secondaryLoop, Outcome.ok.injEq] at h ⊢
    subst h; rfl
  | succ n ih =>
    intro j cs h
    rw [secondaryLoop] at h ⊢
    obtain ⟨ems, h1, h⟩ := Outcome.bind_eq_ok.mp h
    obtain ⟨pp, h2, h⟩ := Outcome.bind_eq_ok.mp h
    obtain ⟨l2, h3, h⟩ := Outcome.bind_eq_ok.mp h
    obtain ⟨a, h4, h⟩ := Outcome.bind_eq_ok.mp h
    obtain ⟨r, h5, h⟩ := Outcome.bind_eq_ok.mp h
    simp only [Outcome.pure_eq, Outcome.ok.injEq] at h
    subst h
    have h1' : vget (rd.scale c).emissions j = .ok (ems.map (Emission.scale c)) := vget_map h1
    rw [h1', Outcome.ok_bind, show (rd.scale c).incident = rd.incident from rfl, h2, Outcome.ok_bind, h3,
      Outcome.ok_bind]
    have h6 : (if i = j then emissionLoop env element thr j L (intra env l muIn frac) (ems.map (Emission.scale c))
      else if pp.1 / lw < 1 / 10000 then .ok []
      else emissionLoop env element thr j L (inter env (rd.scale c) i j l l2 pp.2 frac)
          (ems.map (Emission.scale c))) = .ok (a.map (scaleContrib c)) := by
      split at h4
      · rename_i hij
        rw [if_pos hij]
        exact emissionLoop_scale env element thr c j L
          (fun em fs t p v h => intra_scale env l muIn frac c em fs t p v h) h4
      · rename_i hij
        rw [if_neg hij]
        split at h4
        · rename_i hw
          rw [if_pos hw]
          simp only [Outcome.ok.injEq] at h4
          subst h4; rfl
        · rename_i hw
          rw [if_neg hw]
          exact emissionLoop_scale env element thr c j L
            (fun em fs t p v h => inter_scale env rd i j l l2 pp.2 frac c em fs t p v h) h4
    rw [h6, Outcome.ok_bind, ih (j + 1) h5, Outcome.ok_bind, List.map_append]
    rfl

/-- The contributions to the lines of a cell scale with the weight of the ray. -/
theorem cellContribs_scale {env : Env K} {mix : Nat → K → Outcome (Mix K)} (hc : Consistent env mix) (o : Options K)
    (m m' thr e c w : K) (hm : m ≤ thr) (hm' : m' ≤ thr) (rd rd' : RayData K)
    (h : rayData env o m e w = .ok rd) (h' : rayData env o m' e (c * w) = .ok rd') (element : String) (i : Nat)
    (l : LayerData K) (muIn lw frac : K) (L : List (Str × Tmp K)) (a b : List (Contribution K))
    (ha : cellContribs env o rd element thr i l muIn lw frac L = .ok a)
    (hb : cellContribs env o rd' element thr i l muIn lw frac L = .ok b) : b = a.map (scaleContrib c) := by
  unfold cellContribs at ha hb
  split at ha
  · rename_i hs
    rw [if_pos hs] at hb
    have h1 := secondaryLoop_core (cacheOk_of hc _ (rayData_parts h).2.2.2.2) element thr i l muIn lw frac L _ _ ha
    have h2 := secondaryLoop_core (cacheOk_of hc _ (rayData_parts h').2.2.2.2) element thr i l muIn lw frac L _ _ hb
    rw [core_scale hc o m m' thr e c w hm hm' rd rd' h h',
      secondaryLoop_scale env _ element thr c i l muIn lw frac L _ _ h1] at h2
    simp only [Outcome.ok.injEq] at h2
    exact h2.symm
  · rename_i hs
    rw [if_neg hs] at hb
    simp only [Outcome.ok.injEq] at ha hb
    subst ha hb; rfl

/-! ### What a ray adds to a line -/

/-- Primary excitation, secondary excitation and its contributions by name. -/
abbrev Amount (K : Type) := K × K × (Str → K)

/-- The amounts of an entry; a missing entry has none. -/
def amount : Option (Leaf K) → Amount K
  | none => 0
  | some l => (l.primary, l.secondary, fun n => (l.contrib.find? n).getD 0)

/-- The contributions with the name `n`. -/
def contribAt (cs : List (Contribution K)) (n : Str) : K :=
  ((cs.filter (fun c => decide (c.2.1 = n))).map (fun c => c.2.2)).sum

/-- The amounts of a line with the given primary excitation and contributions. -/
def lineAmount (pr : K) (cs : List (Contribution K)) : Amount K := (pr, (cs.map (fun c => c.2.2)).sum, contribAt cs)

theorem foldl_addAt_find (cs : List (Contribution K)) (n : Str) : ∀ (m : SMap Str K),
    ((cs.foldl (fun m c => addAt m c.2.1 c.2.2) m).find? n).getD 0 = (m.find? n).getD 0 + contribAt cs n := by
  induction cs with
  | nil => intro m; simp [contribAt]
  | cons c rest ih =>
    intro m
    rw [List.foldl_cons, ih]
    unfold addAt contribAt
    rw [SMap.find?_insert, List.filter_cons]
    by_cases h : c.2.1 = n
    · subst h
      simp only [if_true, Option.getD_some, decide_true, List.map_cons, List.sum_cons]
      ring
    · simp [h]

theorem amount_addLine (l : Leaf K) (cs : List (Contribution K)) (t : Str) (esc : SMap String (Line K)) (p : Tmp K)
    (mf : K) (hp : p.secondary = 0) :
    amount (some (addLine { l with contrib := addContribs l.contrib cs t } esc (p.add (contribSum cs t)) mf)) =
      amount (some l) + lineAmount p.primary (cs.filter (fun c => decide (c.1 = t))) := by
  simp only [amount, addLine, lineAmount, Tmp.add, hp, zero_add]
  refine Prod.ext rfl (Prod.ext rfl ?_)
  funext n
  exact foldl_addAt_find _ n _

/-- The working values of a line before anything is calculated. -/
def freshTmp (f : Factor K) (m : K) : Tmp K :=
  { energy := f.energy, mu := m, efficiency := 0, excRate := f.rate, primary := 0, secondary := 0, rate := 0 }

/-- The amounts a ray gives to the line `t` of layer `i`. -/
def LineYield (env : Env K) (o : Options K) (rd : RayData K) (element : String) (thr : K) (i : Nat) (l : LayerData K)
    (frac : K) (t : Str) (f : Factor K) (y : Amount K) : Prop :=
  ∃ m muIn lw mu0 cs, env.mu i f.energy = .ok m ∧ env.mu i rd.energy = .ok muIn ∧
    vget rd.incident i = .ok (lw, mu0) ∧
    cellContribs env o rd element thr i l muIn lw frac [(t, freshTmp f m)] = .ok cs ∧
    y = lineAmount (primaryOf env l muIn lw frac (freshTmp f m)).primary cs

/-- The amounts a ray gives to the line `t` of layer `i` under the key `k`, for one request. -/
def CellYield (env : Env K) (o : Options K) (rd : RayData K) (req : Request) (thr : K) (fs : SMap Str (Factor K))
    (k : String) (i : Nat) (t : Str) (y : Amount K) : Prop :=
  (¬ (keyOf req = k ∧ ∃ l, env.layers[i]? = some l ∧ Active o req i l fs ∧
      t ∈ (selected req.family fs).map Prod.fst) ∧ y = 0) ∨
  (keyOf req = k ∧ ∃ l f, env.layers[i]? = some l ∧ Active o req i l fs ∧ (t, f) ∈ selected req.family fs ∧
    LineYield env o rd req.element thr i l (fracOf o l req.element) t f y)

/-- The threshold of a request. -/
def thresholdFor (env : Env K) (req : Request) : Outcome K :=
  if req.family = "" then .throw .runtimeError
  else env.threshold req.element (String.ofList ((actualFamily req.family).toList.take 1))

/-- The amounts a ray gives to a line for one request, whatever was calculated before. -/
def ReqYield (env : Env K) (o : Options K) (k : String) (i : Nat) (t : Str) (ray : K × K) (req : Request)
    (y : Amount K) : Prop :=
  ((∀ thr, thresholdFor env req = .ok thr → thr > ray.1) ∧ y = 0) ∨
  ∃ thr fs m rd, thresholdFor env req = .ok thr ∧ ¬ thr > ray.1 ∧ env.excite req.element ray.1 ray.2 = .ok fs ∧
    m ≤ thr ∧ rayData env o m ray.1 ray.2 = .ok rd ∧ CellYield env o rd req thr fs k i t y

/-- The amounts a ray gives to a line for a list of requests. -/
def RayYield (env : Env K) (o : Options K) (k : String) (i : Nat) (t : Str) (reqs : List Request) (ray : K × K)
    (y : Amount K) : Prop :=
  ∃ ys, List.Forall₂ (ReqYield env o k i t ray) reqs ys ∧ y = ys.sum

/-- Energy, coefficient and efficiency of a line of the result are those of the line, not of the ray that came first. -/
def Canon (env : Env K) (r : Result K) : Prop :=
  ∀ k i t l, Plain t → leaf? r k i t = some l → env.mu i l.energy = .ok l.mu ∧
    (∃ L, env.layers[i]? = some L ∧ efficiency env i L.geometric l.energy = .ok l.efficiency) ∧
    ∃ el fam e w fs f, k = el ++ " " ++ fam ∧ Plain el.toList ∧ env.excite el e w = .ok fs ∧
      SMap.find? fs t = some f ∧ f.energy = l.energy

theorem key_inj {el el' fam fam' : String} (h : Plain el.toList) (h' : Plain el'.toList)
    (hk : el ++ " " ++ fam = el' ++ " " ++ fam') : el = el' ∧ fam = fam' := by
  have := congrArg String.toList hk
  simp only [String.toList_append] at this
  have h2 : escName el.toList fam.toList = escName el'.toList fam'.toList := by
    unfold escName
    simpa using this
  obtain ⟨a, b⟩ := escName_inj h h' h2
  exact ⟨String.toList_injective a, String.toList_injective b⟩

theorem cell_amount {env : Env K} {mix : Nat → K → Outcome (Mix K)} (hc : Consistent env mix) (hreg : Regular env)
    (o : Options K) (rd : RayData K) (req : Request) (thr : K) (factors : SMap Str (Factor K)) (i : Nat)
    (l : LayerData K) (hl : env.layers[i]? = some l) (r r' : Result K) (hp : Plain req.element.toList)
    {e w : K} (hex : env.excite req.element e w = .ok factors) (hcan : Canon env r)
    (h : cell env o rd req thr factors i l r = .ok r') :
    Canon env r' ∧
    (∀ t, Plain t → ∃ y, CellYield env o rd req thr factors (keyOf req) i t y ∧
      amount (leaf? r' (keyOf req) i t) = amount (leaf? r (keyOf req) i t) + y) ∧
    (∀ k i' t, Plain t → ¬ (keyOf req = k ∧ i = i') → leaf? r' k i' t = leaf? r k i' t) := by
  have hf : SMap.Sorted factors := hreg.factors _ _ _ _ hex
  have hpl : ∀ t ∈ factors.map Prod.fst, Plain t := hreg.names _ _ _ _ hex
  rcases cell_spec env o rd req thr factors i l r r' (fun e esc he => SMap.keys_nodup (hreg.escape e esc he))
    (SMap.keys_nodup hf) hpl h with ⟨hna, rfl⟩ | ⟨ha, muIn, lw, mu0, lines, cs, g1, g2, h1, g3, h2, h3, h4⟩
  · refine ⟨hcan, fun t ht => ⟨0, Or.inl ⟨?_, rfl⟩, by simp⟩, fun _ _ _ _ _ => rfl⟩
    rintro ⟨-, l', hl', ha, -⟩
    rw [hl] at hl'
    exact hna (Option.some.inj hl' ▸ ha)
  have hun : ∀ k i' t, Plain t → ¬ (keyOf req = k ∧ i = i' ∧ t ∈ (selected req.family factors).map Prod.fst) →
      leaf? r' k i' t = leaf? r k i' t := by
    intro k i' t ht hh
    refine h3 k i' t ?_
    rintro ⟨rfl, rfl, h5 | ⟨u, hu, m, rfl⟩⟩
    · exact hh ⟨rfl, rfl, h5⟩
    · exact not_plain_escName _ _ ht
  have hfind : ∀ t f, (t, f) ∈ selected req.family factors → SMap.find? factors t = some f :=
    fun t f hm => SMap.find?_of_mem hf (List.mem_of_mem_filter hm)
  have hndL : (lines.map Prod.fst).Nodup := by
    rw [h1]
    exact List.Nodup.sublist (List.Sublist.map _ List.filter_sublist) (SMap.keys_nodup hf)
  -- the entry a line starts from is the one of the line
  have hbase : ∀ t f l0 esc, Plain t → (t, f) ∈ selected req.family factors →
      LineEffect env (keyOf req) i l thr ((l.composition.find? req.element).getD 0) r r' cs muIn lw
        (fracOf o l req.element) t f l0 esc →
      l0.energy = f.energy ∧ env.mu i l0.energy = .ok l0.mu ∧
      efficiency env i l.geometric l0.energy = .ok l0.efficiency ∧ amount (some l0) = amount (leaf? r (keyOf req) i t) := by
    intro t f l0 esc ht hm he
    rcases he.base with hb | ⟨hb, hb1, hb2, hb3⟩
    · obtain ⟨c1, ⟨L, c2, c3⟩, el, fam, e', w', fs', f', c4, c5, c6, c7, c8⟩ := hcan _ _ _ _ ht hb
      obtain ⟨rfl, -⟩ := key_inj hp c5 c4
      rw [hl] at c2
      rw [Option.some.inj c2]
      refine ⟨?_, c1, c3, by rw [hb]⟩
      rw [← c8]
      exact hc.energy _ _ _ _ _ _ _ t f' f c6 hex c7 (hfind t f hm)
    · have he0 : l0.energy = f.energy := by rw [hb3]
      refine ⟨he0, by rw [he0]; exact hb1, by rw [he0]; exact hb2, ?_⟩
      rw [hb, hb3]
      rfl
  refine ⟨?_, ?_, ?_⟩
  · intro k i' t l' ht hl'
    by_cases hh : keyOf req = k ∧ i = i' ∧ t ∈ (selected req.family factors).map Prod.fst
    · obtain ⟨rfl, rfl, hts⟩ := hh
      rw [← h1] at hts
      obtain ⟨⟨t', p⟩, hpm, rfl⟩ := List.mem_map.mp hts
      obtain ⟨f, l0, esc, hfm, rfl, he⟩ := h2 _ _ hpm
      obtain ⟨b1, b2, b3, -⟩ := hbase _ f l0 esc ht hfm he
      have hl2 := he.line
      rw [hl'] at hl2
      simp only [Option.some.injEq] at hl2
      subst hl2
      exact ⟨b2, ⟨l, hl, b3⟩, req.element, req.family, e, w, factors, f, rfl, hp, hex, hfind _ _ hfm, b1.symm⟩
    · rw [hun k i' t ht hh] at hl'
      exact hcan _ _ _ _ ht hl'
  · intro t ht
    by_cases hts : t ∈ (selected req.family factors).map Prod.fst
    · have hts' := hts
      rw [← h1] at hts
      obtain ⟨⟨t', p⟩, hpm, rfl⟩ := List.mem_map.mp hts
      obtain ⟨f, l0, esc, hfm, hpe, he⟩ := h2 _ _ hpm
      obtain ⟨b1, b2, b3, b4⟩ := hbase _ f l0 esc ht hfm he
      have hcs := cellContribs_single env o rd req.element thr i l muIn lw (fracOf o l req.element)
        (q := freshTmp f l0.mu) (by rw [hpe]; rfl) hndL hpm g3
      refine ⟨_, Or.inr ⟨rfl, l, f, hl, ha, hfm, l0.mu, muIn, lw, mu0, _, by rw [← b1]; exact b2, ?_, g2, hcs, rfl⟩, ?_⟩
      · exact g1
      · rw [he.line, amount_addLine _ _ _ _ _ _ rfl, b4]
        rfl
    · refine ⟨0, Or.inl ⟨?_, rfl⟩, ?_⟩
      · rintro ⟨-, l', _, _, hh⟩
        exact hts hh
      · rw [hun _ _ t ht (fun hh => hts hh.2.2), add_zero]
  · intro k i' t ht hh
    exact hun k i' t ht (fun hx => hh ⟨hx.1, hx.2.1⟩)

theorem cellLoop_amount {env : Env K} {mix : Nat → K → Outcome (Mix K)} (hc : Consistent env mix) (hreg : Regular env)
    (o : Options K) (rd : RayData K) (req : Request) (thr : K) (factors : SMap Str (Factor K))
    (hp : Plain req.element.toList) {e w : K} (hex : env.excite req.element e w = .ok factors) :
    ∀ (ls : List (LayerData K)) (i : Nat) (r r' : Result K), env.layers.drop i = ls → Canon env r →
      cellLoop env o rd req thr factors i ls r = .ok r' →
      Canon env r' ∧ ∀ k i' t, Plain t → ∃ y, (i ≤ i' → CellYield env o rd req thr factors k i' t y) ∧
        (i' < i → y = 0) ∧ amount (leaf? r' k i' t) = amount (leaf? r k i' t) + y := by
  intro ls
  induction ls with
  | nil =>
    intro i r r' hd hcan h
    simp only [cellLoop, Outcome.ok.injEq] at h
    subst h
    refine ⟨hcan, fun k i' t ht => ⟨0, fun hi => Or.inl ⟨?_, rfl⟩, fun _ => rfl, by simp⟩⟩
    rintro ⟨-, l, hl, -⟩
    have := List.drop_eq_nil_iff.mp hd
    rw [List.getElem?_eq_none (by omega)] at hl
    cases hl
  | cons l rest ih =>
    intro i r r' hd hcan h
    rw [cellLoop] at h
    obtain ⟨r1, h1, h⟩ := Outcome.bind_eq_ok.mp h
    have hl : env.layers[i]? = some l := by
      have := congrArg List.head? hd
      simpa [List.head?_drop] using this
    have hd' : env.layers.drop (i + 1) = rest := by
      have := congrArg List.tail hd
      simpa [List.tail_drop] using this
    obtain ⟨c1, c2, c3⟩ := cell_amount hc hreg o rd req thr factors i l hl r r1 hp hex hcan h1
    obtain ⟨d1, d2⟩ := ih (i + 1) r1 r' hd' c1 h
    refine ⟨d1, ?_⟩
    intro k i' t ht
    obtain ⟨y, y1, y2, y3⟩ := d2 k i' t ht
    by_cases hii : i = i'
    · subst hii
      have hy0 := y2 (by omega)
      subst hy0
      by_cases hk : keyOf req = k
      · subst hk
        obtain ⟨z, z1, z2⟩ := c2 t ht
        exact ⟨z, fun _ => z1, fun hh => absurd hh (lt_irrefl _), by rw [y3, z2, add_zero]⟩
      · refine ⟨0, fun _ => Or.inl ⟨fun hh => hk hh.1, rfl⟩, fun _ => rfl, ?_⟩
        rw [y3, c3 k i t ht (fun hh => hk hh.1)]
    · refine ⟨y, fun hh => y1 (by omega), fun hh => y2 (by omega), ?_⟩
      rw [y3, c3 k i' t ht (fun hh => hii hh.2)]

/-! ### All requests and all rays -/

/-- The thresholds that are known are those of the requests. -/
def ThrOk (env : Env K) (reqs : List Request) (thrs : List K) : Prop :=
  ∀ (n : Nat) (t : K), thrs[n]? = some t → ∃ req, reqs[n]? = some req ∧ thresholdFor env req = .ok t

theorem thresholdOf_spec {env : Env K} {reqs : List Request} {thrs thrs' : List K} {req : Request} {n : Nat} {thr : K}
    (hreq : reqs[n]? = some req) (ht : ThrOk env reqs thrs) (hn : n ≤ thrs.length)
    (h : thresholdOf env req n thrs = .ok (thr, thrs')) :
    thresholdFor env req = .ok thr ∧ ThrOk env reqs thrs' ∧ n + 1 ≤ thrs'.length := by
  unfold thresholdOf at h
  unfold thresholdFor
  by_cases hf : req.family = ""
  · rw [if_pos hf] at h; cases h
  · rw [if_neg hf] at h ⊢
    cases hx : thrs[n]? with
    | some t =>
      simp only [hx, Outcome.ok.injEq, Prod.mk.injEq] at h
      obtain ⟨rfl, rfl⟩ := h
      obtain ⟨req', h1, h2⟩ := ht n t hx
      rw [hreq] at h1
      obtain rfl := Option.some.inj h1
      unfold thresholdFor at h2
      rw [if_neg hf] at h2
      refine ⟨h2, ht, ?_⟩
      exact (List.getElem?_eq_some_iff.mp hx).1
    | none =>
      simp only [hx] at h
      obtain ⟨t, h1, h⟩ := Outcome.bind_eq_ok.mp h
      simp only [Outcome.pure_eq, Outcome.ok.injEq, Prod.mk.injEq] at h
      obtain ⟨rfl, rfl⟩ := h
      have hle := List.getElem?_eq_none_iff.mp hx
      have hlen : thrs.length = n := le_antisymm hle hn
      refine ⟨h1, ?_, by simp [hlen]⟩
      intro n' t' hn'
      rw [List.getElem?_append] at hn'
      split at hn'
      · exact ht n' t' hn'
      · rename_i hge
        have hz : n' - thrs.length = 0 := by
          by_contra hne
          rw [List.getElem?_eq_none (by simp; omega)] at hn'
          cases hn'
        rw [hz] at hn'
        simp only [List.getElem?_cons_zero, Option.some.injEq] at hn'
        subst hn'
        have : n' = n := by omega
        subst this
        refine ⟨req, hreq, ?_⟩
        unfold thresholdFor
        rw [if_neg hf]
        exact h1

theorem requestLoop_amount {env : Env K} {mix : Nat → K → Outcome (Mix K)} (hc : Consistent env mix)
    (hreg : Regular env) (o : Options K) (m e w : K) (rd : RayData K) (hrd : rayData env o m e w = .ok rd)
    (reqs : List Request) (hpl : ∀ req ∈ reqs, Plain req.element.toList)
    (hm : ∀ req ∈ reqs, ∀ thr, thresholdFor env req = .ok thr → m ≤ thr) :
    ∀ (rest : List Request) (n : Nat) (thrs thrs' : List K) (r r' : Result K), reqs.drop n = rest →
      ThrOk env reqs thrs → n ≤ thrs.length → Canon env r →
      requestLoop env o rd n (rest.map .ok) thrs r = .ok (thrs', r') →
      Canon env r' ∧ ThrOk env reqs thrs' ∧ reqs.length ≤ thrs'.length ∧
      ∀ k i t, Plain t → ∃ ys, List.Forall₂ (ReqYield env o k i t (e, w)) rest ys ∧
        amount (leaf? r' k i t) = amount (leaf? r k i t) + ys.sum := by
  have hrde : rd.energy = e := (rayData_parts hrd).1
  have hrdw : rd.weight = w := (rayData_parts hrd).2.1
  intro rest
  induction rest with
  | nil =>
    intro n thrs thrs' r r' hd ht hn hcan h
    simp only [List.map_nil, requestLoop, Outcome.ok.injEq, Prod.mk.injEq] at h
    obtain ⟨rfl, rfl⟩ := h
    have := List.drop_eq_nil_iff.mp hd
    exact ⟨hcan, ht, by omega, fun k i t _ => ⟨[], List.Forall₂.nil, by simp⟩⟩
  | cons req rest ih =>
    intro n thrs thrs' r r' hd ht hn hcan h
    rw [List.map_cons, requestLoop] at h
    simp only [Outcome.ok_bind] at h
    obtain ⟨⟨thr, thrs1⟩, h2, h⟩ := Outcome.bind_eq_ok.mp h
    simp only at h
    have hreq : reqs[n]? = some req := by
      have := congrArg List.head? hd
      simpa [List.head?_drop] using this
    have hd' : reqs.drop (n + 1) = rest := by
      have := congrArg List.tail hd
      simpa [List.tail_drop] using this
    have hmem : req ∈ reqs := List.mem_of_getElem? hreq
    obtain ⟨a1, a2, a3⟩ := thresholdOf_spec hreq ht hn h2
    by_cases hlt : thr > rd.energy
    · rw [if_pos hlt] at h
      obtain ⟨b1, b2, b3, b4⟩ := ih (n + 1) thrs1 thrs' r r' hd' a2 a3 hcan h
      refine ⟨b1, b2, b3, fun k i t htp => ?_⟩
      obtain ⟨ys, y1, y2⟩ := b4 k i t htp
      refine ⟨0 :: ys, List.Forall₂.cons (Or.inl ⟨?_, rfl⟩) y1, by simpa using y2⟩
      intro thr' hthr'
      rw [a1] at hthr'
      simp only [Outcome.ok.injEq] at hthr'
      rw [← hthr', ← hrde]
      exact hlt
    · rw [if_neg hlt] at h
      obtain ⟨fs, h3, h⟩ := Outcome.bind_eq_ok.mp h
      obtain ⟨r1, h4, h⟩ := Outcome.bind_eq_ok.mp h
      obtain ⟨c1, c2⟩ := cellLoop_amount hc hreg o rd req thr fs (hpl req hmem) h3 _ 0 r r1 rfl hcan h4
      obtain ⟨b1, b2, b3, b4⟩ := ih (n + 1) thrs1 thrs' r1 r' hd' a2 a3 c1 h
      refine ⟨b1, b2, b3, fun k i t htp => ?_⟩
      obtain ⟨ys, y1, y2⟩ := b4 k i t htp
      obtain ⟨z, z1, -, z2⟩ := c2 k i t htp
      rw [hrde] at hlt h3
      rw [hrdw] at h3
      refine ⟨z :: ys, List.Forall₂.cons (Or.inr ⟨thr, fs, m, rd, a1, hlt, h3, hm req hmem thr a1, hrd,
        z1 (Nat.zero_le _)⟩) y1, ?_⟩
      rw [y2, z2, List.sum_cons, add_assoc]

theorem foldl_min_le (thrs : List K) (h0 : ∀ t ∈ thrs, 0 ≤ t) : ∀ (m : K),
    (0 ≤ m → thrs.foldl (fun m t => if t < m ∨ m < 0 then t else m) m ≤ m) ∧
    ∀ t ∈ thrs, thrs.foldl (fun m t => if t < m ∨ m < 0 then t else m) m ≤ t := by
  induction thrs with
  | nil => intro m; exact ⟨fun _ => le_refl _, fun t h => by simp at h⟩
  | cons x rest ih =>
    intro m
    have hx : 0 ≤ x := h0 x (List.mem_cons_self ..)
    obtain ⟨a, b⟩ := ih (fun t h => h0 t (List.mem_cons_of_mem _ h)) (if x < m ∨ m < 0 then x else m)
    rw [List.foldl_cons]
    have hle : (if x < m ∨ m < 0 then x else m) ≤ x ∧ 0 ≤ (if x < m ∨ m < 0 then x else m) := by
      split
      · exact ⟨le_refl _, hx⟩
      · rename_i hn
        rw [not_or] at hn
        exact ⟨not_lt.mp hn.1, not_lt.mp hn.2⟩
    refine ⟨fun hm => (a hle.2).trans ?_, ?_⟩
    · split
      · rename_i hh
        rcases hh with hh | hh
        · exact hh.le
        · exact absurd hm (not_le.mpr hh)
      · exact le_refl _
    · intro t ht
      rcases List.mem_cons.mp ht with rfl | ht
      · exact (a hle.2).trans hle.1
      · exact b t ht

theorem minimumThreshold_le {env : Env K} {mix : Nat → K → Outcome (Mix K)} (hc : Consistent env mix)
    {reqs : List Request} {thrs : List K} {m : K} (ht : ThrOk env reqs thrs)
    (hcomp : thrs = [] ∨ reqs.length ≤ thrs.length)
    (hm : ∀ req ∈ reqs, ∀ thr, thresholdFor env req = .ok thr → m ≤ thr) :
    ∀ req ∈ reqs, ∀ thr, thresholdFor env req = .ok thr → minimumThreshold thrs m ≤ thr := by
  intro req hreq thr hthr
  unfold minimumThreshold
  split
  · rcases hcomp with rfl | hcomp
    · exact hm req hreq thr hthr
    · obtain ⟨n, hn, hnr⟩ := List.getElem_of_mem hreq
      have hlt : n < thrs.length := by omega
      obtain ⟨req', h1, h2⟩ := ht n thrs[n] (List.getElem?_eq_getElem hlt)
      rw [List.getElem?_eq_getElem hn, hnr] at h1
      obtain rfl := Option.some.inj h1
      rw [hthr] at h2
      simp only [Outcome.ok.injEq] at h2
      rw [h2]
      refine (foldl_min_le thrs ?_ m).2 _ (List.getElem_mem hlt)
      intro t htm
      obtain ⟨n', hn', rfl⟩ := List.getElem_of_mem htm
      obtain ⟨req', h3, h4⟩ := ht n' _ (List.getElem?_eq_getElem hn')
      unfold thresholdFor at h4
      split at h4
      · cases h4
      · exact hc.threshold _ _ _ h4
  · exact hm req hreq thr hthr

theorem rayLoop_amount {env : Env K} {mix : Nat → K → Outcome (Mix K)} (hc : Consistent env mix)
    (hreg : Regular env) (o : Options K) (reqs : List Request) (hpl : ∀ req ∈ reqs, Plain req.element.toList) :
    ∀ (rays : List (K × K)) (thrs : List K) (m : K) (r r' : Result K), ThrOk env reqs thrs →
      (thrs = [] ∨ reqs.length ≤ thrs.length) →
      (∀ req ∈ reqs, ∀ thr, thresholdFor env req = .ok thr → m ≤ thr) → Canon env r →
      rayLoop env o (reqs.map .ok) rays thrs m r = .ok r' →
      Canon env r' ∧ ∀ k i t, Plain t → ∃ ys, List.Forall₂ (RayYield env o k i t reqs) rays ys ∧
        amount (leaf? r' k i t) = amount (leaf? r k i t) + ys.sum := by
  intro rays
  induction rays with
  | nil =>
    intro thrs m r r' _ _ _ hcan h
    simp only [rayLoop, Outcome.ok.injEq] at h
    subst h
    exact ⟨hcan, fun k i t _ => ⟨[], List.Forall₂.nil, by simp⟩⟩
  | cons ray rest ih =>
    obtain ⟨e, w⟩ := ray
    intro thrs m r r' ht hcomp hm hcan h
    rw [rayLoop] at h
    simp only at h
    have hm' := minimumThreshold_le hc ht hcomp hm
    split at h
    · rename_i hlt
      obtain ⟨b1, b2⟩ := ih thrs _ r r' ht hcomp hm' hcan h
      refine ⟨b1, fun k i t htp => ?_⟩
      obtain ⟨ys, y1, y2⟩ := b2 k i t htp
      refine ⟨0 :: ys, List.Forall₂.cons ⟨reqs.map (fun _ => 0), ?_, ?_⟩ y1, by simpa using y2⟩
      · rw [List.forall₂_map_right_iff, List.forall₂_same]
        exact fun req hreq => Or.inl ⟨fun thr hthr => lt_of_lt_of_le hlt (hm' req hreq thr hthr), rfl⟩
      · simp
    · obtain ⟨rd, h1, h⟩ := Outcome.bind_eq_ok.mp h
      obtain ⟨⟨thrs1, r1⟩, h2, h⟩ := Outcome.bind_eq_ok.mp h
      obtain ⟨a1, a2, a3, a4⟩ := requestLoop_amount hc hreg o _ e w rd h1 reqs hpl hm' reqs 0 thrs thrs1 r r1 rfl ht
        (Nat.zero_le _) hcan h2
      obtain ⟨b1, b2⟩ := ih thrs1 _ r1 r' a2 (Or.inr a3) hm' a1 h
      refine ⟨b1, fun k i t htp => ?_⟩
      obtain ⟨ys, y1, y2⟩ := b2 k i t htp
      obtain ⟨zs, z1, z2⟩ := a4 k i t htp
      exact ⟨zs.sum :: ys, List.Forall₂.cons ⟨zs, z1, rfl⟩ y1, by rw [y2, z2, List.sum_cons, add_assoc]⟩

/-! ### What a ray adds is determined, and scales with its weight -/

variable [IsStrictOrderedRing K]

/-- The factor of a line for `c` times the weight. -/
def scaleFactor (c : K) (f : Factor K) : Factor K := { f with rate := c * f.rate, factor := c * f.factor }

/-- The excitation factors are proportional to the weight, for the ratio `c`. -/
def LinearIn (env : Env K) (c : K) : Prop := ∀ el e w fs fs', env.excite el e w = .ok fs →
  env.excite el e (c * w) = .ok fs' → fs' = fs.map (fun x => (x.1, scaleFactor c x.2))

theorem linearIn_one (env : Env K) : LinearIn env 1 := by
  intro el e w fs fs' h h'
  rw [one_mul, h] at h'
  simp only [Outcome.ok.injEq] at h'
  subst h'
  simp [scaleFactor]

theorem selected_scale (family : String) {c : K} (hc : 0 < c) (fs : List (Str × Factor K)) :
    selected family (fs.map (fun x => (x.1, scaleFactor c x.2))) =
      (selected family fs).map (fun x => (x.1, scaleFactor c x.2)) := by
  unfold selected
  rw [List.filter_map]
  congr 1
  refine List.filter_congr (fun x _ => ?_)
  simp only [Function.comp, scaleFactor, not_le]
  congr 2
  simp [hc]

theorem lineAmount_scale (c pr : K) (cs : List (Contribution K)) :
    lineAmount (c * pr) (cs.map (scaleContrib c)) = c • lineAmount pr cs := by
  unfold lineAmount
  refine Prod.ext rfl (Prod.ext ?_ ?_)
  · simp only [List.map_map, Prod.smul_mk, smul_eq_mul]
    rw [← List.sum_map_mul_left]
    rfl
  · funext n
    simp only [Prod.smul_mk, Pi.smul_apply, smul_eq_mul]
    unfold contribAt
    rw [List.filter_map, List.map_map, ← List.sum_map_mul_left]
    rfl

theorem cellContribs_names {env : Env K} {o : Options K} {rd : RayData K} {element : String} {thr : K} {i : Nat}
    {l : LayerData K} {muIn lw frac : K} {t : Str} {p : Tmp K} {cs : List (Contribution K)}
    (h : cellContribs env o rd element thr i l muIn lw frac [(t, p)] = .ok cs) :
    cs.filter (fun c => decide (c.1 = t)) = cs := by
  rw [List.filter_eq_self]
  intro c hc
  unfold cellContribs at h
  split at h
  · have := secondaryLoop_mem h c hc
    simpa using this
  · simp only [Outcome.ok.injEq] at h
    subst h; simp at hc

theorem lineYield_scale {env : Env K} {mix : Nat → K → Outcome (Mix K)} (hc : Consistent env mix) (o : Options K)
    (m m' thr e c w : K) (hm : m ≤ thr) (hm' : m' ≤ thr) (rd rd' : RayData K)
    (h : rayData env o m e w = .ok rd) (h' : rayData env o m' e (c * w) = .ok rd') (element : String) (i : Nat)
    (l : LayerData K) (frac : K) (t : Str) (f : Factor K) (y y' : Amount K)
    (hy : LineYield env o rd element thr i l frac t f y)
    (hy' : LineYield env o rd' element thr i l frac t (scaleFactor c f) y') : y' = c • y := by
  obtain ⟨mu, muIn, lw, mu0, cs, a1, a2, a3, a4, rfl⟩ := hy
  obtain ⟨mu', muIn', lw', mu0', cs', b1, b2, b3, b4, rfl⟩ := hy'
  obtain ⟨p1, p2, p3, p4, p5⟩ := rayData_parts h
  obtain ⟨q1, q2, q3, q4, q5⟩ := rayData_parts h'
  rw [p3] at q3
  simp only [Outcome.ok.injEq] at q3
  have e1 : mu' = mu := by
    have : env.mu i f.energy = .ok mu' := b1
    rw [a1] at this
    simpa using this.symm
  have e2 : muIn' = muIn := by
    rw [q1] at b2
    rw [p1, b2] at a2
    simpa using a2
  have e3 : lw' = lw := by
    rw [← q3, a3] at b3
    simp only [Outcome.ok.injEq, Prod.mk.injEq] at b3
    exact b3.1.symm
  subst e1 e2 e3
  have hcs := cellContribs_single env o rd' element thr i l muIn' lw' frac (q := freshTmp f mu')
    (p := freshTmp (scaleFactor c f) mu') rfl (by simp) (List.mem_singleton.mpr rfl) b4
  rw [cellContribs_names b4] at hcs
  have := cellContribs_scale hc o m m' thr e c w hm hm' rd rd' h h' element i l muIn' lw' frac _ cs cs' a4 hcs
  subst this
  rw [← lineAmount_scale]
  congr 1
  simp only [primaryOf, freshTmp, scaleFactor]
  ring

theorem cellYield_scale {env : Env K} {mix : Nat → K → Outcome (Mix K)} (hc : Consistent env mix) (o : Options K)
    (m m' thr e c w : K) (hpos : 0 < c) (hm : m ≤ thr) (hm' : m' ≤ thr) (rd rd' : RayData K)
    (h : rayData env o m e w = .ok rd) (h' : rayData env o m' e (c * w) = .ok rd') (req : Request)
    (fs : SMap Str (Factor K)) (hfs : SMap.Sorted fs) (k : String) (i : Nat) (t : Str) (y y' : Amount K)
    (hy : CellYield env o rd req thr fs k i t y)
    (hy' : CellYield env o rd' req thr (fs.map (fun x => (x.1, scaleFactor c x.2))) k i t y') : y' = c • y := by
  have hact : ∀ l, Active o req i l (fs.map (fun x => (x.1, scaleFactor c x.2))) ↔ Active o req i l fs := by
    intro l
    unfold Active
    rw [selected_scale _ hpos]
    simp
  have hsel : t ∈ (selected req.family (fs.map (fun x => (x.1, scaleFactor c x.2)))).map Prod.fst ↔
      t ∈ (selected req.family fs).map Prod.fst := by
    rw [selected_scale _ hpos, List.map_map]
    rfl
  rcases hy with ⟨n1, rfl⟩ | ⟨k1, l, f, a1, a2, a3, a4⟩
  · rcases hy' with ⟨-, rfl⟩ | ⟨k2, l, f, a1, a2, a3, a4⟩
    · simp
    · refine absurd ⟨k2, l, a1, (hact l).mp a2, hsel.mp (List.mem_map.mpr ⟨_, a3, rfl⟩)⟩ n1
  · rcases hy' with ⟨n2, rfl⟩ | ⟨k2, l', f', b1, b2, b3, b4⟩
    · exact absurd ⟨k1, l, a1, (hact l).mpr a2, hsel.mpr (List.mem_map.mpr ⟨_, a3, rfl⟩)⟩ n2
    · rw [a1] at b1
      obtain rfl := Option.some.inj b1
      rw [selected_scale _ hpos] at b3
      obtain ⟨⟨t2, f2⟩, b5, b6⟩ := List.mem_map.mp b3
      simp only [Prod.mk.injEq] at b6
      obtain ⟨rfl, rfl⟩ := b6
      have h1 := SMap.find?_of_mem hfs (List.mem_of_mem_filter a3)
      have h2 := SMap.find?_of_mem hfs (List.mem_of_mem_filter b5)
      rw [h1] at h2
      obtain rfl := Option.some.inj h2
      exact lineYield_scale hc o m m' thr e c w hm hm' rd rd' h h' req.element i l _ t2 f y y' a4 b4

theorem reqYield_scale {env : Env K} {mix : Nat → K → Outcome (Mix K)} (hc : Consistent env mix) (hreg : Regular env)
    (o : Options K) (c : K) (hpos : 0 < c) (hlin : LinearIn env c) (k : String) (i : Nat) (t : Str) (e w : K)
    (req : Request) (y y' : Amount K) (hy : ReqYield env o k i t (e, w) req y)
    (hy' : ReqYield env o k i t (e, c * w) req y') : y' = c • y := by
  rcases hy with ⟨n1, rfl⟩ | ⟨thr, fs, m, rd, a1, a2, a3, a4, a5, a6⟩
  · rcases hy' with ⟨-, rfl⟩ | ⟨thr, fs, m, rd, a1, a2, a3, a4, a5, a6⟩
    · simp
    · exact absurd (n1 thr a1) a2
  · rcases hy' with ⟨n2, rfl⟩ | ⟨thr', fs', m', rd', b1, b2, b3, b4, b5, b6⟩
    · exact absurd (n2 thr a1) a2
    · rw [a1] at b1
      simp only [Outcome.ok.injEq] at b1
      subst b1
      have := hlin _ _ _ _ _ a3 b3
      subst this
      exact cellYield_scale hc o m m' thr e c w hpos a4 b4 rd rd' a5 b5 req fs (hreg.factors _ _ _ _ a3) k i t y y' a6 b6

theorem rayYield_scale {env : Env K} {mix : Nat → K → Outcome (Mix K)} (hc : Consistent env mix) (hreg : Regular env)
    (o : Options K) (c : K) (hpos : 0 < c) (hlin : LinearIn env c) (k : String) (i : Nat) (t : Str) (e w : K)
    (reqs : List Request) (y y' : Amount K) (hy : RayYield env o k i t reqs (e, w) y)
    (hy' : RayYield env o k i t reqs (e, c * w) y') : y' = c • y := by
  obtain ⟨ys, h1, rfl⟩ := hy
  obtain ⟨ys', h2, rfl⟩ := hy'
  induction h1 generalizing ys' with
  | nil => cases h2; simp
  | cons a1 a2 ih =>
    cases h2 with
    | cons b1 b2 =>
      rw [List.sum_cons, List.sum_cons, smul_add, ← ih _ b2,
        reqYield_scale hc hreg o c hpos hlin k i t e w _ _ _ a1 b1]

theorem rayYield_unique {env : Env K} {mix : Nat → K → Outcome (Mix K)} (hc : Consistent env mix) (hreg : Regular env)
    (o : Options K) (k : String) (i : Nat) (t : Str) (reqs : List Request) (ray : K × K) (y y' : Amount K)
    (hy : RayYield env o k i t reqs ray y) (hy' : RayYield env o k i t reqs ray y') : y' = y := by
  obtain ⟨e, w⟩ := ray
  have := rayYield_scale hc hreg o 1 one_pos (linearIn_one env) k i t e w reqs y y' hy (by rw [one_mul]; exact hy')
  simpa using this

/-! ### The calculation -/

theorem tertiary_leaf {r : Result K} (hs : SortedLines r) (k : String) (i : Nat) (t : Str) :
    (leaf? r k i t = none ∧ leaf? (tertiary r) k i t = none) ∨
    ∃ l l', leaf? r k i t = some l ∧ leaf? (tertiary r) k i t = some l' ∧
      ∃ rate ter, l' = { l with rate := rate, tertiary := ter } := by
  have hloop := tertiaryLoop_spec (tertiaryKeys r) (linesOf r k i) (linesOf r k i) (hs k i)
  cases hl : leaf? r k i t with
  | none =>
    refine Or.inl ⟨rfl, ?_⟩
    unfold leaf?
    rw [linesOf_tertiary, hloop.1 t]
    · exact hl
    · intro hm
      obtain ⟨y, hy, rfl⟩ := List.mem_map.mp hm
      rw [leaf?, SMap.find?_of_mem (hs k i) hy] at hl
      cases hl
  | some l =>
    obtain ⟨acc', h1, -⟩ := hloop.2 t l (SMap.mem_of_find? hl)
    refine Or.inr ⟨l, _, rfl, by unfold leaf?; rw [linesOf_tertiary]; exact h1, ?_⟩
    unfold tertiaryOf
    split
    · exact ⟨l.rate, 0, rfl⟩
    · exact ⟨_, _, rfl⟩

theorem calculate_amount {env : Env K} {mix : Nat → K → Outcome (Mix K)} (hc : Consistent env mix)
    (hreg : Regular env) (o : Options K) (reqs : List Request) (hpl : ∀ req ∈ reqs, Plain req.element.toList)
    (rays : List (K × K)) (r : Result K) (h : calculate env o (reqs.map .ok) rays = .ok r) :
    Canon env r ∧ ∀ k i t, Plain t → ∃ ys, List.Forall₂ (RayYield env o k i t reqs) rays.reverse ys ∧
      amount (leaf? r k i t) = ys.sum := by
  unfold calculate at h
  obtain ⟨r0, h1, h⟩ := Outcome.bind_eq_ok.mp h
  simp only [Outcome.pure_eq, Outcome.ok.injEq] at h
  obtain ⟨a, b⟩ := rayLoop_amount hc hreg o reqs hpl rays.reverse [] (-1) [] r0
    (fun n t hh => by simp at hh) (Or.inl rfl) (by
      intro req _ thr hthr
      unfold thresholdFor at hthr
      split at hthr
      · cases hthr
      · exact le_trans (by norm_num) (hc.threshold _ _ _ hthr)) (fun k i t l _ hh => by cases hh) h1
  have b' : ∀ k i t, Plain t → ∃ ys, List.Forall₂ (RayYield env o k i t reqs) rays.reverse ys ∧
      amount (leaf? r0 k i t) = ys.sum := by
    intro k i t ht
    obtain ⟨ys, y1, y2⟩ := b k i t ht
    exact ⟨ys, y1, by rw [y2]; show (0 : Amount K) + _ = _; rw [zero_add]⟩
  have hs := (inv_rayLoop env hreg o _ _ _ _ _ _ (inv_nil env) h1).sorted
  split at h
  · subst h
    refine ⟨?_, ?_⟩
    · intro k i t l ht hl
      rcases tertiary_leaf hs k i t with ⟨-, h2⟩ | ⟨l0, l', h2, h3, rate, ter, rfl⟩
      · rw [h2] at hl; cases hl
      · rw [h3] at hl
        obtain rfl := Option.some.inj hl
        exact a k i t l0 ht h2
    · intro k i t ht
      obtain ⟨ys, y1, y2⟩ := b' k i t ht
      refine ⟨ys, y1, ?_⟩
      rw [← y2]
      rcases tertiary_leaf hs k i t with ⟨h2, h3⟩ | ⟨l0, l', h2, h3, rate, ter, rfl⟩
      · rw [h2, h3]
      · rw [h2, h3]; rfl
  · subst h
    exact ⟨a, b'⟩

/-- The contribution of every ray as a function. -/
theorem amount_fun {env : Env K} {mix : Nat → K → Outcome (Mix K)} (hc : Consistent env mix)
    (hreg : Regular env) (o : Options K) (reqs : List Request) (hpl : ∀ req ∈ reqs, Plain req.element.toList)
    (k : String) (i : Nat) (t : Str) (ht : Plain t) :
    ∃ g : K × K → Amount K, (∀ ray y, RayYield env o k i t reqs ray y → y = g ray) ∧
      ∀ rays r, calculate env o (reqs.map .ok) rays = .ok r → amount (leaf? r k i t) = (rays.map g).sum := by
  classical
  refine ⟨fun ray => if hx : ∃ y, RayYield env o k i t reqs ray y then hx.choose else 0, ?_, ?_⟩
  · intro ray y hy
    simp only
    rw [dif_pos ⟨y, hy⟩]
    exact rayYield_unique hc hreg o k i t reqs ray _ _ (Exists.choose_spec ⟨y, hy⟩) hy
  · intro rays r h
    obtain ⟨ys, y1, y2⟩ := (calculate_amount hc hreg o reqs hpl rays r h).2 k i t ht
    rw [y2]
    have : ys = rays.reverse.map (fun ray => if hx : ∃ y, RayYield env o k i t reqs ray y then hx.choose else 0) := by
      clear y2 h
      generalize rays.reverse = rs at y1 ⊢
      induction y1 with
      | nil => rfl
      | cons a1 a2 ih =>
        rw [List.map_cons, ← ih]
        congr 1
        rw [dif_pos ⟨_, a1⟩]
        exact rayYield_unique hc hreg o k i t reqs _ _ _ (Exists.choose_spec ⟨_, a1⟩) a1
    rw [this, List.map_reverse, List.sum_reverse]

end Multilayer
end Fisx
