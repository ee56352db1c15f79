import Verif.ElementEmission
import Verif.Sound
import Verif.CachesXrf
import Verif.ElementRefs

/-!
# C143: sensible shell data do not create photons or vacancies without bound

The theorems on the cascade (C16), on the lines (C142) and on the caches (C128) ask for transfers that are not negative and
for lines of one shell only. Here these follow, for every history of calls on an element and for every element of a library
made from files, from data that can be read through the API: yields, rates and relative intensities.
-/

set_option linter.unusedSectionVars false

namespace Fisx

variable {K : Type} [Field K] [LinearOrder K] [IsStrictOrderedRing K]

namespace Shell

/-- Data that make sense, as they are read with getShellConstants, getNonradiativeTransitions and getFluorescenceRatios:
no negative yield, rate or relative intensity, the yields add up to at most one, the relative intensities too, and the
TOTAL of the rates is not below their sum. -/
structure Sensible (s : Shell K) : Prop where
  constants : ∀ p ∈ s.constants, 0 ≤ p.2
  yields : SMap.total s.constants ≤ 1
  rates : ∀ p ∈ s.nonradiative, 0 ≤ p.2
  total : rateSum s.nonradiative ≤ (s.nonradiative.find? Shell.total).getD 0
  lines : ∀ p ∈ s.fluorescence, 0 ≤ p.2
  branching : (s.fluorescence.map Prod.snd).sum ≤ 1

end Shell

namespace Element

/-- Every shell was made by the constructor and the setters of a shell, and is stored under its name. -/
def ShellsMade (e : Element K) : Prop := ∀ k s, e.shells.find? k = some s → s.name = k ∧ Shell.Core s

theorem ShellsMade.of_eq {e e' : Element K} (h : ShellsMade e) (he : e'.shells = e.shells) : ShellsMade e' := by
  intro k s hs
  rw [he] at hs
  exact h k s hs

theorem ShellsMade.insert {e e' : Element K} (h : ShellsMade e) {sub : Str} {s' : Shell K} (hn : s'.name = sub)
    (hc : Shell.Core s') (he : e'.shells = e.shells.insert sub s') : ShellsMade e' := by
  intro k s hk
  rw [he, SMap.find?_insert] at hk
  split_ifs at hk with hkk
  · cases hk
    exact ⟨hn.trans hkk, hc⟩
  · exact h k s hk

theorem setNonradiative_name (s : Shell K) (l : List Str) (v : List K) : (s.setNonradiative l v).2.name = s.name := by
  unfold Shell.setNonradiative
  split <;> rfl

theorem setRadiative_name (s : Shell K) (l : List Str) (v : List K) : (s.setRadiative l v).2.name = s.name := by
  unfold Shell.setRadiative
  split <;> rfl

theorem ShellsMade.constants {e : Element K} (h : ShellsMade e) (sub : Str) (d : SMap Str K) :
    ShellsMade (e.setShellConstants sub d).2 := by
  unfold Element.setShellConstants
  cases hs : e.shells.find? sub with
  | none => exact h
  | some s =>
    dsimp only
    obtain ⟨h1, h2⟩ := h sub s hs
    have h3 := Shell.core_constants h2 d
    have h4 : (s.setShellConstants d).2.name = sub := h1
    split
    · exact h.insert h4 h3 rfl
    · exact h.insert h4 h3 rfl

theorem ShellsMade.radiative {e : Element K} (h : ShellsMade e) (sub : Str) (l : List Str) (v : List K) :
    ShellsMade (e.setRadiative sub l v).2 := by
  unfold Element.setRadiative
  cases hs : e.checkSubshell sub with
  | ok s =>
    obtain ⟨h1, h2⟩ := h sub s (Init.checkSubshell_shell hs)
    exact h.insert ((setRadiative_name s l v).trans h1) (Shell.core_radiative h2 l v) rfl
  | throw _ => exact h
  | ub _ => exact h
  | diverge => exact h

theorem ShellsMade.radiativeMap {e : Element K} (h : ShellsMade e) (sub : Str) (d : SMap Str K) :
    ShellsMade (e.setRadiativeMap sub d).2 := by
  unfold Element.setRadiativeMap
  cases hs : e.checkSubshell sub with
  | ok s =>
    obtain ⟨h1, h2⟩ := h sub s (Init.checkSubshell_shell hs)
    have h3 : (s.setRadiativeMap d).2.name = sub := (setRadiative_name s _ _).trans h1
    have h4 : Shell.Core (s.setRadiativeMap d).2 := Shell.core_radiative h2 _ _
    dsimp only
    split
    · exact h.insert h3 h4 rfl
    · exact h.insert h3 h4 rfl
  | throw _ => exact h
  | ub _ => exact h
  | diverge => exact h

theorem ShellsMade.nonradiative {e : Element K} (h : ShellsMade e) (sub : Str) (l : List Str) (v : List K)
    (hlen : l.length ≤ v.length) : ShellsMade (e.setNonradiative sub l v).2 := by
  unfold Element.setNonradiative
  cases hs : e.checkSubshell sub with
  | ok s =>
    obtain ⟨h1, h2⟩ := h sub s (Init.checkSubshell_shell hs)
    have h3 := (setNonradiative_name s l v).trans h1
    have h4 := Shell.core_nonradiative h2 l v hlen
    dsimp only
    split
    · exact h.insert h3 h4 rfl
    · exact h.insert h3 h4 rfl
  | throw _ => exact h
  | ub _ => exact h
  | diverge => exact h

theorem ShellsMade.binding (e : Element K) (b : SMap Str K) : ShellsMade (e.setBindingEnergies b).2 := by
  intro k s hs
  unfold Element.setBindingEnergies at hs
  rcases Init.bindingLoop_fresh b [] [] k s hs with h | h
  · cases h
  · exact ⟨(Init.mk?_name h).1, Shell.core_mk h⟩


/-- The vectors of a call that sets nonradiative transitions have sizes that match (otherwise values are read past the end). -/
def Op.Sized : Op K → Prop
  | .setNonradiative _ l v => l.length ≤ v.length
  | _ => True

variable [Trans K]

theorem ShellsMade.step {e : Element K} (h : ShellsMade e) (op : Op K) (hop : op.Sized) : ShellsMade (e.step op).2 := by
  cases op with
  | setAtomicNumber z => exact h.of_eq (by simp only [Element.step, Element.setAtomicNumber]; split <;> rfl)
  | setBindingEnergies b => exact ShellsMade.binding e b
  | setMass en ph co cm pa =>
    refine h.of_eq ?_
    simp only [Element.step]
    unfold Element.setMassAttenuationCoefficients
    repeat' (first | rfl | split)
  | setPartial s en v =>
    refine h.of_eq ?_
    simp only [Element.step]
    unfold Element.setPartial
    repeat' (first | rfl | split)
  | setRadiative s l v => exact h.radiative s l v
  | setRadiativeMap s m => exact h.radiativeMap s m
  | setNonradiative s l v => exact h.nonradiative s l v hop
  | setNonradiativeMap s m => exact h.nonradiative s _ _ (by simp)
  | setShellConstants s c => exact h.constants s c
  | setCascadeCacheEnabled f => exact h.of_eq (Refs.setCascade_shells e f)
  | fillCascadeCache => exact h.of_eq (Refs.fillCascade_shells e)
  | emptyCascadeCache => exact h.of_eq rfl
  | setCacheEnabled f => exact h.of_eq rfl
  | clearCache => exact h.of_eq rfl
  | fillCache en => exact h.of_eq (Refs.fillLoop_shells _ _)
  | updateCache en => exact h.of_eq (Refs.updateLoop_shells _ _)

theorem ShellsMade.run {e : Element K} (h : ShellsMade e) (ops : List (Op K)) (hops : ∀ op ∈ ops, op.Sized) :
    ShellsMade (e.run ops) := by
  induction ops generalizing e with
  | nil => exact h
  | cons op r ih =>
    exact ih (h.step op (hops op (by simp))) (fun o ho => hops o (List.mem_cons_of_mem _ ho))


theorem shellsMade_mk {z : Int} {e0 : Element K} (h0 : mk? z = .ok e0) : ShellsMade e0 := by
  unfold mk? at h0
  split at h0
  · cases h0
  · cases h0
    intro k s hs
    cases hs

/-! ## Transfers -/

section
omit [Trans K]

/-- All the shells have data that make sense, and their lines carry the name of their shell. -/
structure SensibleData (e : Element K) : Prop where
  shells : ∀ k s, e.shells.find? k = some s → Shell.Sensible s
  labels : ∀ k s, e.shells.find? k = some s → ∀ p ∈ s.fluorescence, k <+: p.1

theorem tval_sum {e : Element K} (hm : ShellsMade e) (hs : SensibleData e) (k : Str) (ds : List Str) (hnd : ds.Nodup)
    (hds : ∀ j ∈ ds, j ∈ Element.keys) :
    (∀ j ∈ ds, 0 ≤ tval e.shells k j) ∧ (ds.map (tval e.shells k)).sum ≤ 2 := by
  cases hf : e.shells.find? k with
  | none =>
    have h0 : ∀ j, tval e.shells k j = 0 := by
      intro j
      unfold tval transfer
      rw [hf]
    refine ⟨fun j _ => (h0 j).ge, ?_⟩
    rw [List.map_congr_left (fun j _ => h0 j)]
    simp
  | some s =>
    have hS := hs.shells k s hf
    obtain ⟨_, hC⟩ := hm k s hf
    let val : Str → Shell.Transfer K := fun j =>
      match s.getDirectVacancyTransferRatios j with
      | .ok t => t
      | _ => { fluorescence := 0, auger := 0, ck := [] }
    let good : Str → Bool := fun j =>
      match s.getDirectVacancyTransferRatios j with
      | .ok _ => true
      | _ => false
    have hgood : ∀ j, good j = true → s.getDirectVacancyTransferRatios j = .ok (val j) := by
      intro j hj
      simp only [good, val] at hj ⊢
      split at hj
      · rename_i t ht; rw [ht]
      · cases hj
    have htv : ∀ j, tval e.shells k j = if good j then (val j).sum else 0 := by
      intro j
      unfold tval transfer
      rw [hf]
      simp only [good, val]
      cases s.getDirectVacancyTransferRatios j <;> simp
    have hD : Shell.Destinations (ds.filter good) := by
      refine ⟨hnd.filter _, ?_, ?_⟩
      · intro j hj
        exact (Shell.direct_ok (hgood j (List.mem_filter.1 hj).2)).1
      · intro h
        have := hds _ (List.mem_filter.1 h).1
        revert this
        decide
    have hB := Shell.bounded_core hC hS.lines hS.branching hS.constants hS.yields hS.rates hS.total (ds.filter good) hD val
      (fun j hj => hgood j (List.mem_filter.1 hj).2)
    constructor
    · intro j hj
      rw [htv]
      split_ifs with hg
      · have := hB.1 j (List.mem_filter.2 ⟨hj, hg⟩)
        unfold Shell.Transfer.sum
        have h5 := SMap.total_nonneg this.2.2
        linarith [this.1, this.2.1]
      · exact le_refl _
    · refine le_trans (le_of_eq ?_) hB.2
      clear hB hD hds hnd
      induction ds with
      | nil => rfl
      | cons j l ih =>
        simp only [List.map_cons, List.sum_cons, List.filter_cons, ih, htv]
        split_ifs <;> simp

theorem transfersNonneg {e : Element K} (hm : ShellsMade e) (hs : SensibleData e) : TransfersNonneg e.shells := by
  intro k j hj t ht
  have h := (tval_sum hm hs k [j] (by simp) (by simpa using hj)).1 j (by simp)
  unfold tval at h
  rw [ht] at h
  exact h

theorem ShellsMade.keys {e : Element K} (hm : ShellsMade e) (k : Str) (s : Shell K) (h : e.shells.find? k = some s) :
    k ∈ Element.keys := by
  obtain ⟨h1, h2⟩ := hm k s h
  have := (Shell.wf_targets h2.wf).2.1
  rw [h1] at this
  exact this

theorem separateLines {e : Element K} (hm : ShellsMade e) (hs : SensibleData e) : SeparateLines e.shells where
  nodup := fun k s h => SMap.keys_nodup (hm k s h).2.lines
  disjoint := by
    intro k s k' s' t r r' h1 h2 h3 h4
    have p := hs.labels k s h1 _ h3
    have p' := hs.labels k' s' h2 _ h4
    rcases List.prefix_or_prefix_of_prefix p p' with h | h
    · exact Init.keys_prefix k (hm.keys k s h1) k' (hm.keys k' s' h2) h
    · exact (Init.keys_prefix k' (hm.keys k' s' h2) k (hm.keys k s h1) h).symm

theorem cleanShells {e : Element K} (hm : ShellsMade e) (hs : SensibleData e) : CleanShells e.shells where
  sorted := fun k s h => (hm k s h).2.lines
  nonneg := fun k s h => (hs.shells k s h).lines
  yield_nonneg := by
    intro k s h
    unfold yieldOf
    cases hf : s.constants.find? "omega".toList with
    | none => exact le_refl _
    | some v => exact (hs.shells k s h).constants _ (SMap.mem_of_find? hf)
  disjoint := (separateLines hm hs).disjoint

/-! ## The cascade -/

/-- Vacancies handed on with at most two for each one, from shell to outer shells, cannot grow without bound. -/
theorem cascade_bound (a b : Nat → K) (t : Nat → Nat → K) (N : Nat) (ha : ∀ n, n < N → 0 ≤ a n) (ht : ∀ i n, i < N → n < N → 0 ≤ t i n)
    (hsum : ∀ i m, i < N → m ≤ N → ∑ n ∈ Finset.range m, t i n ≤ 2)
    (hbal : ∀ n, n < N → a n = b n + ∑ i ∈ Finset.range n, t i n * a i) (hb : ∀ n, n < N → 0 ≤ b n) :
    ∀ m, m ≤ N → ∑ n ∈ Finset.range m, a n ≤ (2 ^ m - 1) * ∑ n ∈ Finset.range m, b n := by
  intro m
  induction m with
  | zero => intro _; simp
  | succ m ih =>
    intro hm
    have ih := ih (by omega)
    have h1 : ∑ n ∈ Finset.range (m + 1), a n
        = ∑ n ∈ Finset.range (m + 1), b n + ∑ n ∈ Finset.range (m + 1), ∑ i ∈ Finset.range n, t i n * a i := by
      rw [← Finset.sum_add_distrib]
      refine Finset.sum_congr rfl (fun n hn => hbal n ?_)
      have := Finset.mem_range.1 hn
      omega
    have h2 : ∑ n ∈ Finset.range (m + 1), ∑ i ∈ Finset.range n, t i n * a i
        ≤ ∑ n ∈ Finset.range (m + 1), ∑ i ∈ Finset.range m, t i n * a i := by
      refine Finset.sum_le_sum (fun n hn => ?_)
      have hn' := Finset.mem_range.1 hn
      refine Finset.sum_le_sum_of_subset_of_nonneg (Finset.range_mono (by omega)) (fun i hi _ => ?_)
      have hi' := Finset.mem_range.1 hi
      exact mul_nonneg (ht i n (by omega) (by omega)) (ha i (by omega))
    have h3 : ∑ n ∈ Finset.range (m + 1), ∑ i ∈ Finset.range m, t i n * a i ≤ 2 * ∑ i ∈ Finset.range m, a i := by
      rw [Finset.sum_comm, Finset.mul_sum]
      refine Finset.sum_le_sum (fun i hi => ?_)
      have hi' := Finset.mem_range.1 hi
      rw [← Finset.sum_mul]
      exact mul_le_mul_of_nonneg_right (hsum i (m + 1) (by omega) hm) (ha i (by omega))
    have h4 : ∑ n ∈ Finset.range m, b n ≤ ∑ n ∈ Finset.range (m + 1), b n := by
      rw [Finset.sum_range_succ]
      linarith [hb m (by omega)]
    have h5 : (0 : K) ≤ 2 ^ m - 1 := by
      have : (1 : K) ≤ 2 ^ m := one_le_pow₀ (by norm_num)
      linarith
    have h6 := mul_le_mul_of_nonneg_left h4 h5
    rw [pow_succ]
    nlinarith

theorem sum_take (g : Str → K) (ks : List Str) (m : Nat) (hm : m ≤ ks.length) :
    ((ks.take m).map g).sum = ∑ n ∈ Finset.range m, g (ks.getD n []) := by
  induction m with
  | zero => simp
  | succ m ih =>
    have e1 : ks.take (m + 1) = ks.take m ++ [ks[m]] := by
      rw [List.take_add_one, List.getElem?_eq_getElem (by omega)]
      rfl
    rw [Finset.sum_range_succ, ← ih (by omega), e1, List.map_append, List.sum_append, List.getD_eq_getElem?_getD,
      List.getElem?_eq_getElem (by omega)]
    simp only [List.map_cons, List.map_nil, List.sum_cons, List.sum_nil, add_zero, Option.getD_some]

end

section
omit [Trans K]

theorem at0_nonneg {d : SMap Str K} (hd : ∀ p ∈ d, 0 ≤ p.2) (k : Str) : 0 ≤ at0 d k := by
  unfold at0
  cases hf : d.find? k with
  | none => exact le_refl _
  | some v => exact hd _ (SMap.mem_of_find? hf)

theorem cascade_keys {e : Element K} {d f : SMap Str K} (h : e.getCascade d = .ok f)
    (hT : TransfersNonneg e.shells) (hd : ∀ p ∈ d, 0 ≤ p.2) :
    f = (keys.take e.shells.length).map (fun k => (k, at0 f k)) := by
  obtain ⟨_, rfl⟩ := (getCascade_iff hT hd f).1 h
  refine List.map_congr_left (fun k hk => ?_)
  rw [at0_map _ _ _ hk]

theorem cascade_total {e : Element K} (hm : ShellsMade e) (hs : SensibleData e) {d f : SMap Str K} (hsort : SMap.Sorted d)
    (hd : ∀ p ∈ d, 0 ≤ p.2) (h : e.getCascade d = .ok f) :
    (∀ p ∈ f, 0 ≤ p.2) ∧ SMap.total f ≤ 511 * SMap.total d := by
  have hT := transfersNonneg hm hs
  obtain ⟨-, hbal, hmono⟩ := C16_balance hT hd h
  have hfe := cascade_keys h hT hd
  set N := (keys.take e.shells.length).length with hN
  have hN9 : N ≤ 9 := by
    rw [hN, List.length_take]
    exact le_trans (Nat.min_le_right _ _) (le_of_eq rfl)
  have hNk : N ≤ keys.length := hN9
  have htake : keys.take e.shells.length = keys.take N := by
    rw [hN, List.length_take, List.take_eq_take_iff]
    omega
  have hkey : ∀ n (hn : n < N), (keys.take e.shells.length)[n] = keys.getD n [] := by
    intro n hn
    rw [List.getElem_take, List.getD_eq_getElem?_getD, List.getElem?_eq_getElem (by omega)]
    rfl
  have hmem : ∀ n, n < N → keys.getD n [] ∈ keys.take e.shells.length := by
    intro n hn
    rw [← hkey n hn]
    exact List.getElem_mem _
  have hnn : ∀ k ∈ keys.take e.shells.length, 0 ≤ at0 f k := fun k hk => le_trans (at0_nonneg hd k) (hmono k hk)
  have hnn' : ∀ p ∈ f, 0 ≤ p.2 := by
    intro p hp
    rw [hfe] at hp
    obtain ⟨k, hk, rfl⟩ := List.mem_map.1 hp
    exact hnn k hk
  refine ⟨hnn', ?_⟩
  have hnd : keys.Nodup := by decide
  have hbound := cascade_bound (fun n => at0 f (keys.getD n [])) (fun n => at0 d (keys.getD n []))
    (fun i n => tval e.shells (keys.getD i []) (keys.getD n [])) N (fun n hn => hnn _ (hmem n hn))
    (fun i n _ hn => (tval_sum hm hs _ [keys.getD n []] (by simp)
      (by simpa using List.mem_of_mem_take (hmem n hn))).1 _ (by simp))
    (fun i m _ hmN => by
      rw [← sum_take (tval e.shells (keys.getD i [])) keys m (by omega)]
      exact (tval_sum hm hs _ (keys.take m) (hnd.sublist (List.take_sublist _ _)) (fun j hj => List.mem_of_mem_take hj)).2)
    (fun n hn => by
      have := hbal n hn
      dsimp only at this
      rw [hkey n hn] at this
      rw [this, sum_take (fun i => tval e.shells i (keys.getD n []) * at0 f i) keys n (by omega)])
    (fun n hn => at0_nonneg hd _) N le_rfl
  have h1 : SMap.total f = ∑ n ∈ Finset.range N, at0 f (keys.getD n []) := by
    rw [← sum_take (at0 f) keys N hNk, ← htake]
    unfold SMap.total
    conv_lhs => rw [hfe]
    rw [List.map_map]
    rfl
  have h2 : ∑ n ∈ Finset.range N, at0 d (keys.getD n []) ≤ SMap.total d := by
    rw [← sum_take (at0 d) keys N hNk]
    exact Shell.sum_find_le d hsort hd _ (hnd.sublist (List.take_sublist _ _))
  have h3 : (0 : K) ≤ ∑ n ∈ Finset.range N, at0 d (keys.getD n []) :=
    Finset.sum_nonneg (fun n _ => at0_nonneg hd _)
  have h4 : (2 : K) ^ N - 1 ≤ 511 := by
    have : (2 : K) ^ N ≤ 2 ^ 9 := pow_le_pow_right₀ (by norm_num) hN9
    norm_num at this
    linarith
  rw [h1]
  calc _ ≤ _ := hbound
    _ ≤ 511 * ∑ n ∈ Finset.range N, at0 d (keys.getD n []) := mul_le_mul_of_nonneg_right h4 h3
    _ ≤ _ := mul_le_mul_of_nonneg_left h2 (by norm_num)

/-! ## The lines -/

theorem sum_subset_le {f : Str → K} (hf : ∀ t, 0 ≤ f t) {l m : List Str} (hnd : l.Nodup) (hsub : ∀ t ∈ l, t ∈ m) :
    (l.map f).sum ≤ (m.map f).sum := by
  obtain ⟨l', hp, hl⟩ := List.subperm_of_subset hnd hsub
  rw [← (hp.map f).sum_eq]
  refine (hl.map f).sum_le_sum (fun x hx => ?_)
  obtain ⟨t, -, rfl⟩ := List.mem_map.1 hx
  exact hf t

theorem sum_flatMap_le {f : Str → K} {g : Str × K → List Str} (vac : List (Str × K))
    (h : ∀ p ∈ vac, ((g p).map f).sum ≤ p.2) : ((vac.flatMap g).map f).sum ≤ (vac.map Prod.snd).sum := by
  induction vac with
  | nil => simp
  | cons p l ih =>
    rw [List.flatMap_cons, List.map_append, List.sum_append, List.map_cons, List.sum_cons]
    exact add_le_add (h p (by simp)) (ih (fun q hq => h q (List.mem_cons_of_mem _ hq)))

theorem linesOfShell_sorted {e : Element K} {y : Bool} {k : Str} {s : Shell K} {v : K} (ratios : List (Str × K)) :
    ∀ acc out, SMap.Sorted acc → linesOfShell e y k s v ratios acc = .ok out → SMap.Sorted out := by
  induction ratios with
  | nil =>
    intro acc out ha h
    simp only [linesOfShell, Outcome.ok.injEq] at h
    exact h ▸ ha
  | cons p rest ih =>
    intro acc out ha h
    obtain ⟨t, r⟩ := p
    unfold linesOfShell at h
    obtain ⟨rate, -, h⟩ := Outcome.bind_eq_ok.mp h
    split at h
    · obtain ⟨en, -, h⟩ := Outcome.bind_eq_ok.mp h
      exact ih _ _ (SMap.insert_sorted ha _ _) h
    · exact ih _ _ ha h

theorem linesLoop_sorted {e : Element K} {y : Bool} (dist : List (Str × K)) :
    ∀ acc out, SMap.Sorted acc → linesLoop e y dist acc = .ok out → SMap.Sorted out := by
  induction dist with
  | nil =>
    intro acc out ha h
    simp only [linesLoop, Outcome.ok.injEq] at h
    exact h ▸ ha
  | cons p rest ih =>
    intro acc out ha h
    obtain ⟨k, v⟩ := p
    unfold linesLoop at h
    split at h
    · cases h
    · obtain ⟨acc', h1, h⟩ := Outcome.bind_eq_ok.mp h
      exact ih _ _ (linesOfShell_sorted _ _ _ ha h1) h

theorem getLines_sorted {e : Element K} (hoff : e.cascadeOn = false ∨ e.cascadeCache = []) {d : SMap Str K} {c y : Bool}
    {out : SMap Str (Line K)} (h : e.getLines d c y = .ok out) : SMap.Sorted out := by
  unfold getLines at h
  cases c with
  | true =>
    simp only [if_true] at h
    rw [if_neg (by
      rintro ⟨h1, -, h3⟩
      rcases hoff with ho | ho
      · rw [ho] at h1; cases h1
      · rw [ho] at h3; simp at h3)] at h
    obtain ⟨f, -, h⟩ := Outcome.bind_eq_ok.mp h
    exact linesLoop_sorted _ _ _ SMap.sorted_nil h
  | false =>
    simp only [Bool.false_eq_true, if_false] at h
    exact linesLoop_sorted _ _ _ SMap.sorted_nil h

theorem lines_total {e : Element K} (hm : ShellsMade e) (hs : SensibleData e)
    (hoff : e.cascadeOn = false ∨ e.cascadeCache = []) {d : SMap Str K} (hsort : SMap.Sorted d)
    (hd : ∀ p ∈ d, 0 ≤ p.2) {c y : Bool} {out : SMap Str (Line K)}
    (h : e.getLines d c y = .ok out) :
    (∀ p ∈ out, 0 < p.2.rate) ∧
    (out.map (fun p => p.2.rate)).sum ≤ (if c then 511 else 1) * SMap.total d := by
  have hS := separateLines hm hs
  have hout : (out.map Prod.fst).Nodup := SMap.keys_nodup (getLines_sorted hoff h)
  have hpos := getLines_positive_off hoff h
  refine ⟨hpos, ?_⟩
  obtain ⟨vac, hvac, hrates⟩ := C142_rates hoff hS h
  obtain ⟨vac', hvac', hsum⟩ := C142_sum hoff hS h
  have hvv : vac' = vac := by
    unfold Emitting at hvac hvac'
    cases c with
    | true =>
      simp only [if_true] at hvac hvac'
      rw [hvac] at hvac'
      cases hvac'
      rfl
    | false =>
      simp only [Bool.false_eq_true, if_false] at hvac hvac'
      rw [hvac, hvac']
  subst hvv
  have hv : (∀ p ∈ vac', 0 ≤ p.2) ∧ (vac'.map Prod.snd).sum ≤ (if c then 511 else 1) * SMap.total d := by
    unfold Emitting at hvac
    cases c with
    | true =>
      simp only [if_true] at hvac ⊢
      exact cascade_total hm hs hsort hd hvac
    | false =>
      simp only [Bool.false_eq_true, if_false] at hvac ⊢
      subst hvac
      refine ⟨?_, ?_⟩
      · intro p hp
        obtain ⟨k, _, rfl⟩ := List.mem_map.1 hp
        exact at0_nonneg hd k
      · rw [List.map_map, one_mul]
        exact Shell.sum_find_le d hsort hd _ ((show keys.Nodup by decide).sublist (List.take_sublist _ _))
  refine le_trans ?_ hv.2
  have hr0 : ∀ t, 0 ≤ rateAt out t := by
    intro t
    unfold rateAt
    cases hf : out.find? t with
    | none => exact le_refl _
    | some l => exact (hpos _ (SMap.mem_of_find? hf)).le
  have hlist : out.map (fun p => p.2.rate) = (out.map Prod.fst).map (rateAt out) := by
    rw [List.map_map]
    refine List.map_congr_left (fun p hp => ?_)
    have : SMap.find? out p.1 = some p.2 := SMap.find?_of_mem_nodup hout (by simpa using hp)
    simp [rateAt, this]
  rw [hlist]
  let labels : Str × K → List Str := fun p =>
    match e.shells.find? p.1 with
    | some s => s.fluorescence.map Prod.fst
    | none => []
  refine le_trans (sum_subset_le hr0 hout (m := vac'.flatMap labels) ?_) (sum_flatMap_le vac' ?_)
  · intro t ht
    obtain ⟨p, hp, rfl⟩ := List.mem_map.1 ht
    have hf : SMap.find? out p.1 = some p.2 := SMap.find?_of_mem_nodup hout (by simpa using hp)
    obtain ⟨k, v, s, r, w, h1, h2, h3, -⟩ := (hrates p.1 p.2).1 hf
    refine List.mem_flatMap.2 ⟨(k, v), h1, ?_⟩
    simp only [labels, h2]
    exact List.mem_map.2 ⟨_, h3, rfl⟩
  · rintro ⟨k, v⟩ hkv
    have hv0 := hv.1 _ hkv
    simp only [labels]
    cases hk : e.shells.find? k with
    | none => simpa using hv0
    | some s =>
      have hS' := hs.shells k s hk
      have hC := (hm k s hk).2
      simp only [List.map_map]
      have hshare : ∃ w, Share y s w ∧ 0 ≤ w ∧ w ≤ 1 := by
        unfold Share
        cases y with
        | true =>
          simp only [if_true]
          have hkeys := (Shell.wf_targets hC.wf).2.2
          have hom : "omega".toList ∈ s.constants.map Prod.fst := by
            rw [hkeys]
            simp
          obtain ⟨⟨o, w⟩, hw, ho⟩ := List.mem_map.1 hom
          simp only at ho
          subst ho
          have hcs : SMap.Sorted s.constants := by obtain ⟨_, _, _, _, _, h⟩ := hC.wf; exact h
          have hf := SMap.find?_of_mem hcs hw
          refine ⟨w, ?_, hS'.constants _ hw, ?_⟩
          · unfold Shell.getFluorescenceYield
            rw [hf]
          · refine le_trans ?_ hS'.yields
            have := Shell.sum_find_le s.constants hcs hS'.constants ["omega".toList] (by simp)
            simp only [List.map_cons, List.map_nil, List.sum_cons, List.sum_nil, add_zero, hf, Option.getD_some] at this
            exact this
        | false =>
          simp only [Bool.false_eq_true, if_false]
          exact ⟨1, rfl, zero_le_one, le_refl _⟩
      obtain ⟨w, hw, hw0, hw1⟩ := hshare
      exact (hsum k v s w hkv hk hw hv0 hw0 hS'.lines).2 hw1 hS'.branching

end

/-! ## C143 -/

/-- **C143** Take any history of calls on an element (sizes of the vectors matching), after which the yields, rates and relative
intensities of its shells make sense. Then the cascade takes away no vacancy and one vacancy ends as at most 511 = 2^9 - 1
of them. -/
theorem C143_vacancies {z : Int} {e0 : Element K} (h0 : mk? z = .ok e0) (ops : List (Op K)) (hops : ∀ op ∈ ops, op.Sized)
    (hs : SensibleData (e0.run ops)) {d f : SMap Str K} (hsort : SMap.Sorted d) (hd : ∀ p ∈ d, 0 ≤ p.2)
    (h : (e0.run ops).getCascade d = .ok f) :
    (∀ k ∈ Element.keys.take (e0.run ops).shells.length, (d.find? k).getD 0 ≤ (f.find? k).getD 0) ∧
    SMap.total f ≤ 511 * SMap.total d := by
  have hm := (shellsMade_mk h0).run ops hops
  exact ⟨(C16_balance (transfersNonneg hm hs) hd h).2.2, (cascade_total hm hs hsort hd h).2⟩

/-- **C143** In the same situation the lines have positive rates, and there are at most as many photons as vacancies: without
cascade the given ones, with cascade 511 times as many. -/
theorem C143_photons {z : Int} {e0 : Element K} (h0 : mk? z = .ok e0) (ops : List (Op K)) (hops : ∀ op ∈ ops, op.Sized)
    (hs : SensibleData (e0.run ops)) (hoff : (e0.run ops).cascadeOn = false ∨ (e0.run ops).cascadeCache = [])
    {d : SMap Str K} (hsort : SMap.Sorted d) (hd : ∀ p ∈ d, 0 ≤ p.2) {c y : Bool} {out : SMap Str (Line K)}
    (h : (e0.run ops).getLines d c y = .ok out) :
    (∀ p ∈ out, 0 < p.2.rate) ∧ (out.map (fun p => p.2.rate)).sum ≤ (if c then 511 else 1) * SMap.total d :=
  lines_total ((shellsMade_mk h0).run ops hops) hs hoff hsort hd h

/-- **C143** The photons per photon absorbed by the photoelectric effect: the excitation factors with weight 1 add up to at
most 511. -/
theorem C143_per_event (hexp : ExpNonneg K) {z : Int} {e0 : Element K} (h0 : mk? z = .ok e0) (ops : List (Op K))
    (hops : ∀ op ∈ ops, op.Sized) (hpart : ∀ op ∈ ops, op.NonnegPartials) (hs : SensibleData (e0.run ops))
    (hoff : (e0.run ops).cascadeOn = false ∨ (e0.run ops).cascadeCache = [])
    (hc : (e0.run ops).cacheOn = false ∨ (e0.run ops).excCache = []) {x w : K} (hw : 0 ≤ w) {fs : SMap Str (Factor K)}
    (h : (e0.run ops).getFactors x w = .ok fs) : (fs.map (fun p => p.2.factor)).sum ≤ 511 * w := by
  have h' : (e0.run ops).computeFactors x w = .ok fs := by
    unfold getFactors at h
    rcases hc with hc | hc
    · simpa [hc] using h
    · rw [hc] at h
      simpa [SMap.find?] using h
  unfold computeFactors at h'
  obtain ⟨vac, h1, h'⟩ := Outcome.bind_eq_ok.mp h'
  obtain ⟨lines, h2, h'⟩ := Outcome.bind_eq_ok.mp h'
  obtain ⟨q1, q2, q3⟩ := C21_distribution hexp h0 ops hpart x vac h1
  have hsort : SMap.Sorted vac := by
    have : (vac.map Prod.fst).Pairwise (· < ·) := by
      have e1 : vac.map Prod.fst = photoShells := q1
      rw [e1]
      decide
    exact List.pairwise_map.1 this
  have hle : SMap.total vac ≤ 1 := by
    rcases q3 with q | ⟨q, -⟩
    · exact q.le
    · refine le_trans (le_of_eq ?_) zero_le_one
      unfold SMap.total
      exact List.sum_eq_zero (fun v hv => by
        obtain ⟨p, hp, rfl⟩ := List.mem_map.1 hv
        exact q p hp)
  have hl := (C143_photons h0 ops hops hs hoff hsort q2 h2).2
  simp only [if_true] at hl
  split at h'
  · simp only [Outcome.pure_eq, Outcome.ok.injEq] at h'
    subst h'
    simpa using mul_nonneg (by norm_num : (0 : K) ≤ 511) hw
  · obtain ⟨m, h3, h'⟩ := Outcome.bind_eq_ok.mp h'
    simp only [Outcome.pure_eq, Outcome.ok.injEq] at h'
    subst h'
    rw [List.map_map]
    have e1 : ((fun p : Str × Factor K => p.2.factor) ∘ fun l : Str × Line K =>
        (l.1, ({ energy := l.2.energy, factor := l.2.rate * w, rate := l.2.rate * w * m.photoelectric } : Factor K)))
        = fun l => l.2.rate * w := rfl
    rw [e1, List.sum_map_mul_right]
    refine mul_le_mul_of_nonneg_right ?_ hw
    linarith

/-! ### The hypotheses are met -/

attribute [local instance] exampleTrans

theorem sensible_of_check {e : Element ℚ}
    (h : ∀ p ∈ e.shells, (∀ q ∈ p.2.constants, 0 ≤ q.2) ∧ SMap.total p.2.constants ≤ 1 ∧ (∀ q ∈ p.2.nonradiative, 0 ≤ q.2) ∧
      Shell.rateSum p.2.nonradiative ≤ (p.2.nonradiative.find? Shell.total).getD 0 ∧ (∀ q ∈ p.2.fluorescence, 0 ≤ q.2) ∧
      (p.2.fluorescence.map Prod.snd).sum ≤ 1 ∧ ∀ q ∈ p.2.fluorescence, q.1.take p.1.length = p.1) : SensibleData e where
  shells := fun k s hs => by
    obtain ⟨h1, h2, h3, h4, h5, h6, -⟩ := h _ (SMap.mem_of_find? hs)
    exact ⟨h1, h2, h3, h4, h5, h6⟩
  labels := fun k s hs p hp => by
    have := (h _ (SMap.mem_of_find? hs)).2.2.2.2.2.2 p hp
    simp only at this
    rw [← this]
    exact List.take_prefix _ _

theorem exampleElement_sensible : SensibleData exampleElement := sensible_of_check (by decide +kernel)

/-- An element made by calls that meet the hypotheses; a K vacancy ends as 5/2 vacancies. -/
example : ∃ e0, (mk? 26 : Outcome (Element ℚ)) = .ok e0 ∧ (∀ op ∈ exampleOps, op.Sized) ∧ SensibleData (e0.run exampleOps) ∧
    (e0.run exampleOps).cascadeOn = false ∧ ((e0.run exampleOps).getCascade [("K".toList, 1)]).bind (fun f => .ok (SMap.total f)) = .ok (5 / 2) ∧
    ((e0.run exampleOps).getLines [("K".toList, 1)] true true).bind (fun out => .ok (out.map (fun p => p.2.rate)).sum)
      = .ok (23 / 32) := by
  refine ⟨_, rfl, ?_, exampleElement_sensible, ?_, ?_, ?_⟩
  · intro op hop
    have : ∀ op ∈ exampleOps, (match op with | .setNonradiative _ l v => decide (l.length ≤ v.length) | _ => true) = true := by
      decide +kernel
    have := this op hop
    cases op <;> first | trivial | simpa [Op.Sized] using this
  · decide +kernel
  · decide +kernel
  · decide +kernel

end Element

namespace Init

/-- **C143** The same holds for the elements of a library made from files, and the other theorems on elements (C16, C17, C128,
C142) apply to them: transfers are not negative and every line belongs to one shell. -/
theorem C143_constructed [Trans K] (on : Bool) (key : EscapeKey K)
    (strtod : Str → K) (fs : Files) (dataDir dir binding cross : String) (pymca : Bool) (d : Database K)
    (h : construct1 on key strtod fs dataDir dir = .ok d ∨ construct2 on key strtod fs dir pymca = .ok d ∨
      construct3 on key strtod fs dir binding cross = .ok d) (a : LibElement K) (ha : a ∈ d.lib.elements)
    (hs : Element.SensibleData a.data) :
    Element.TransfersNonneg a.data.shells ∧ Element.SeparateLines a.data.shells ∧ Element.CleanShells a.data.shells ∧
    (∀ (v f : SMap Str K), SMap.Sorted v → (∀ p ∈ v, 0 ≤ p.2) → a.data.getCascade v = .ok f →
      SMap.total f ≤ 511 * SMap.total v) ∧
    (∀ (v : SMap Str K) (c y : Bool) (out : SMap Str (Line K)), SMap.Sorted v → (∀ p ∈ v, 0 ≤ p.2) →
      a.data.getLines v c y = .ok out → (∀ p ∈ out, 0 < p.2.rate) ∧
        (out.map (fun p => p.2.rate)).sum ≤ (if c then 511 else 1) * SMap.total v) := by
  have hM := (constructed_made h).1 a ha
  have hm : Element.ShellsMade a.data := fun k s hk => ⟨hM.name k s hk, hM.core k s hk⟩
  exact ⟨Element.transfersNonneg hm hs, Element.separateLines hm hs, Element.cleanShells hm hs,
    fun v f h1 h2 h3 => (Element.cascade_total hm hs h1 h2 h3).2,
    fun v c y out h1 h2 h3 => Element.lines_total hm hs (Or.inr hM.cascade) h1 h2 h3⟩

/-- The assumption of C128 in terms of data that can be read. -/
theorem cacheable_constructed [Trans K] {on : Bool} {key : EscapeKey K} {strtod : Str → K} {fs : Files}
    {dataDir dir binding cross : String} {pymca : Bool} {d : Database K}
    (h : construct1 on key strtod fs dataDir dir = .ok d ∨ construct2 on key strtod fs dir pymca = .ok d ∨
      construct3 on key strtod fs dir binding cross = .ok d)
    (hkeys : ∀ a ∈ d.lib.elements, a.data.shells.keys = Element.keys)
    (hdata : ∀ a ∈ d.lib.elements, Element.SensibleData a.data)
    (hpart : ∀ a ∈ d.lib.elements, ∀ s l, a.data.partialV.find? s = some l → ∀ v ∈ l, 0 ≤ v)
    (hlines : ∀ a ∈ d.lib.elements, ∀ s ∈ Element.keys, ∃ l, Element.getLines a.data [(s, 1)] true true = .ok l) :
    Library.Cacheable d.lib := by
  intro a ha
  have hM := (constructed_made h).1 a ha
  have hm : Element.ShellsMade a.data := fun k s hk => ⟨hM.name k s hk, hM.core k s hk⟩
  refine ⟨hkeys a ha, Element.transfersNonneg hm (hdata a ha), Element.cleanShells hm (hdata a ha), hpart a ha, ?_⟩
  intro s hs
  obtain ⟨l, hl⟩ := hlines a ha s hs
  refine ⟨l, ?_⟩
  rw [← hl]
  unfold Element.getLines
  rw [if_pos rfl, if_pos rfl, if_neg (by simp [Element.bare]), if_neg (by simp [hM.cascade]),
    Element.getCascade_congr (Element.bare_emission a.data).symm]
  refine congrArg _ (funext fun f => ?_)
  exact Element.linesLoop_congr (Element.bare_emission a.data).symm _ _ _

/-- **C128** For a library made from files whose elements have the nine subshells K to M5, sensible shell data, no negative
partial coefficients, and binding energies for all their lines, the calls on the caches change no answer on multilayer samples. -/
theorem C128_from_files (pf : String → Outcome (SMap String ℝ)) (fuel : Nat) (on : Bool)
    (key : EscapeKey ℝ) (strtod : Str → ℝ) (fs : Files) (dataDir dir binding cross : String) (pymca : Bool) (d : Database ℝ)
    (h : construct1 on key strtod fs dataDir dir = .ok d ∨ construct2 on key strtod fs dir pymca = .ok d ∨
      construct3 on key strtod fs dir binding cross = .ok d)
    (hkeys : ∀ a ∈ d.lib.elements, a.data.shells.keys = Element.keys)
    (hdata : ∀ a ∈ d.lib.elements, Element.SensibleData a.data)
    (hpart : ∀ a ∈ d.lib.elements, ∀ s l, a.data.partialV.find? s = some l → ∀ v ∈ l, 0 ≤ v)
    (hlines : ∀ a ∈ d.lib.elements, ∀ s ∈ Element.keys, ∃ l, Element.getLines a.data [(s, 1)] true true = .ok l)
    (ops : List (Library.Op ℝ)) (hops : ∀ op ∈ ops, op.OnCaches) {R : Type}
    (srt : List (String × ℝ) → List (String × ℝ)) (c : Config ℝ R) (o : Multilayer.Options ℝ) (useGeometric : Bool)
    (overwriting : Beam ℝ) (reqs : List (Outcome Xrf.Request)) :
    Multilayer.fluorescence pf fuel (d.lib.run pf fuel ops) srt c o useGeometric overwriting reqs
      = Multilayer.fluorescence pf fuel d.lib srt c o useGeometric overwriting reqs :=
  Multilayer.C128_fluorescence pf fuel (cacheable_constructed h hkeys hdata hpart hlines)
    (C128_constructed on key strtod fs dataDir dir binding cross pymca d h) ops hops srt c o useGeometric overwriting reqs

end Init
end Fisx
