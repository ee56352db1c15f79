import Verif.Element
import Verif.Good

/-!
# Queries on an element with complete data return (property C78)
-/

set_option linter.unusedSectionVars false

namespace Fisx
namespace Element

open Outcome (Good)

variable {K : Type} [Field K] [LinearOrder K] [IsStrictOrderedRing K] [Trans K]

/-- The partial photoelectric data are complete: every subshell has a binding energy (zero if there is no such shell);
the table of a bound subshell has as many values as energies and ends with three positive values; the table of the other
shells has at least two points. -/
structure PartialsComplete (e : Element K) : Prop where
  shell : ∀ s ∈ keys, ∃ b, e.binding.find? s = some b ∧ (b ≠ 0 →
    ∃ E V, e.partialE.find? s = some E ∧ e.partialV.find? s = some V ∧ E.length = V.length ∧ 3 ≤ V.length ∧
      ∀ v ∈ V.drop (V.length - 3), 0 < v)
  other : ∃ E V, e.partialE.find? allOther = some E ∧ e.partialV.find? allOther = some V ∧ E.length = V.length ∧
    2 ≤ V.length

/-- The data of an element are complete: coefficients for at least two energies, no partial data or complete ones, the
subshells from K on, each with its constants and its direct transfers, lines between known shells, and a filled cascade
cache if it is used. -/
structure Complete (e : Element K) : Prop where
  energies : 2 ≤ e.muEnergy.length
  table : ∃ t, e.mu = some t ∧ t.coherent.length = e.muEnergy.length ∧ t.compton.length = e.muEnergy.length ∧
    t.pair.length = e.muEnergy.length
  partials : (∀ p ∈ e.partialE, p.2 = []) ∨ PartialsComplete e
  shells : ∀ k ∈ keys.take e.shells.length, ∃ s, e.shells.find? k = some s
  yields : ∀ k s, e.shells.find? k = some s → ∃ w, s.getFluorescenceYield = .ok w
  transfers : ∀ k s, e.shells.find? k = some s → ∀ j ∈ keys, j.length = 2 →
    ∃ t, s.getDirectVacancyTransferRatios j = .ok t
  lines : ∀ k s t r, e.shells.find? k = some s → (t, r) ∈ s.fluorescence → 2 ≤ t.length ∧
    (∃ b, e.binding.find? k = some b ∧ 0 < b) ∧ 0 ≤ at0 e.binding (t.drop (t.length - 2))
  cascade : e.cascadeOn = true → ∀ k ∈ keys, ∃ l, e.cascadeCache.find? k = some l

variable {e : Element K}

theorem vgetI_good {α : Type} {l : List α} {i : Int} (h0 : 0 ≤ i) (h : i < l.length) : Good false (vgetI l i) := by
  unfold vgetI
  rw [if_neg (by omega)]
  exact vget_good (by omega)

theorem indices_range (vec : List K) (h : 2 ≤ vec.length) (x : K) : 0 ≤ (interpolationIndices vec x).1 ∧
    (interpolationIndices vec x).2 = (interpolationIndices vec x).1 + 1 ∧
    (interpolationIndices vec x).2 < vec.length := by
  unfold interpolationIndices
  have hp : vec.findIdx (fun v => decide (¬ v < x)) ≤ vec.length := List.findIdx_le_length
  dsimp only
  split_ifs with h1 h2
  · dsimp only; omega
  · dsimp only; omega
  · dsimp only; omega

theorem bracket_good (vec : List K) (h : 2 ≤ vec.length) (x : K) : ∃ i1 i2 x0 x1, bracket vec x = .ok (i1, i2, x0, x1) ∧
    0 ≤ i1 ∧ i2 = i1 + 1 ∧ i2 < vec.length := by
  obtain ⟨h1, h2, h3⟩ := indices_range vec h x
  unfold bracket
  obtain ⟨x0, hx0⟩ := Outcome.good_false_iff.mp (vgetI_good (l := vec) h1 (by omega))
  obtain ⟨x1, hx1⟩ := Outcome.good_false_iff.mp (vgetI_good (l := vec) (i := (interpolationIndices vec x).2) (by omega) h3)
  simp only [hx0, hx1, Outcome.ok_bind]
  split_ifs with h4
  · obtain ⟨n, hn⟩ := Outcome.good_false_iff.mp
      (vgetI_good (l := vec) (i := (interpolationIndices vec x).2 + 1) (by omega) h4.2)
    simp only [hn, Outcome.ok_bind]
    split_ifs
    · exact ⟨_, _, _, _, rfl, by omega, rfl, h4.2⟩
    · exact ⟨_, _, _, _, rfl, h1, h2, h3⟩
  · exact ⟨_, _, _, _, rfl, h1, h2, h3⟩

theorem firstPositive_le {V : List K} {i k : Nat} (hik : i ≤ k) (hk : k < V.length) (hpos : ∀ h : k < V.length, 0 < V[k]) :
    ∃ w, firstPositive V i = .ok w ∧ w ≤ k := by
  unfold firstPositive
  have hex : ∃ x ∈ V.drop i, (fun y => decide (y > 0)) x = true := by
    refine ⟨V[k], ?_, by simpa using hpos hk⟩
    rw [List.mem_drop_iff_getElem]
    exact ⟨k - i, by omega, by congr 1; omega⟩
  rcases hj : (V.drop i).findIdx? (fun y => decide (y > 0)) with _ | j
  · exfalso
    rw [List.findIdx?_eq_none_iff] at hj
    obtain ⟨x, hx, hp⟩ := hex
    have hq := hj x hx
    dsimp only at hp hq
    rw [hq] at hp
    cases hp
  · refine ⟨i + j, rfl, ?_⟩
    by_contra hlt
    rw [List.findIdx?_eq_some_iff_getElem] at hj
    obtain ⟨hjl, -, hmin⟩ := hj
    have h1 := hmin (k - i) (by omega)
    rw [List.getElem_drop] at h1
    have h2 := hpos hk
    have : i + (k - i) = k := by omega
    simp only [this, Bool.not_eq_true, decide_eq_false_iff_not, not_lt] at h1
    exact absurd h2 (not_lt.mpr h1)

theorem partialValue_good {E V : List K} (hl : E.length = V.length) (h3 : 3 ≤ V.length)
    (hpos : ∀ v ∈ V.drop (V.length - 3), 0 < v) (x : K) : Good false (partialValue false E V x) := by
  obtain ⟨i1, i2, x0, x1, hb, h0, h12, h2⟩ := bracket_good E (by omega) x
  have hp : ∀ k, V.length - 3 ≤ k → ∀ h : k < V.length, 0 < V[k] := by
    intro k hk h
    apply hpos
    rw [List.mem_drop_iff_getElem]
    exact ⟨k - (V.length - 3), by omega, by congr 1; omega⟩
  have hfind : ∀ y0, vgetI V i1 = .ok y0 → ¬ y0 > 0 → ∃ w, firstPositive V i1.toNat = .ok w ∧ w + 2 < V.length := by
    intro y0 hy hn
    have hi1 : i1.toNat < V.length - 3 := by
      by_contra hge
      unfold vgetI at hy
      rw [if_neg (by omega), vget_lt _ _ (by omega)] at hy
      simp only [Outcome.ok.injEq] at hy
      exact hn (hy ▸ hp _ (by omega) _)
    obtain ⟨w, hw, hle⟩ := firstPositive_le (V := V) (i := i1.toNat) (k := V.length - 3) (by omega) (by omega)
      (fun h => hp _ (le_refl _) h)
    exact ⟨w, hw, by omega⟩
  unfold partialValue
  rw [hb, Outcome.ok_bind]
  dsimp only
  refine Good.ite (fun _ => ?_) fun _ => ?_
  · rw [if_neg (by simp)]
    refine (vgetI_good h0 (by omega)).bind fun y0 hy0 => ?_
    refine Good.ite (fun _ => trivial) fun hn => ?_
    refine (vgetI_good (by omega) (by omega)).bind fun y1 _ => ?_
    refine Good.ite (fun _ => trivial) fun _ => ?_
    obtain ⟨w, hw, hlt⟩ := hfind y0 hy0 hn
    rw [hw, Outcome.ok_bind]
    refine (vget_good (by omega)).bind fun _ _ => ?_
    refine (vget_good (by omega)).bind fun _ _ => ?_
    refine (vget_good (by omega)).bind fun _ _ => ?_
    exact (vget_good (by omega)).bind fun _ _ => trivial
  · refine (vgetI_good h0 (by omega)).bind fun y0 hy0 => ?_
    refine (vgetI_good (by omega) (by omega)).bind fun y1 _ => ?_
    rw [if_neg (by simp)]
    refine Good.ite (fun _ => trivial) fun hn => ?_
    obtain ⟨w, hw, hlt⟩ := hfind y0 hy0 hn
    rw [hw, Outcome.ok_bind]
    refine (vget_good (by omega)).bind fun a _ => ?_
    refine (vget_good (by omega)).bind fun c _ => ?_
    have hw' : (if c - a < 1 / 10000000000 then w + 1 else w) + 1 < V.length := by split_ifs <;> omega
    generalize (if c - a < 1 / 10000000000 then w + 1 else w) = u at hw' ⊢
    refine (vget_good (by omega)).bind fun _ _ => ?_
    refine (vget_good (by omega)).bind fun _ _ => ?_
    refine (vget_good (by omega)).bind fun _ _ => ?_
    exact (vget_good (by omega)).bind fun _ _ => trivial

theorem partialValue_other_good {E V : List K} (hl : E.length = V.length) (h2 : 2 ≤ V.length) (x : K) :
    Good false (partialValue true E V x) := by
  obtain ⟨i1, i2, x0, x1, hb, h0, h12, h2'⟩ := bracket_good E (by omega) x
  unfold partialValue
  rw [hb, Outcome.ok_bind]
  dsimp only
  refine Good.ite (fun _ => ?_) fun _ => ?_
  · rw [if_pos rfl]
    exact vgetI_good (by omega) (by omega)
  · refine (vgetI_good h0 (by omega)).bind fun y0 _ => ?_
    refine (vgetI_good (by omega) (by omega)).bind fun y1 _ => ?_
    rw [if_pos rfl]
    trivial

theorem partialsLoop_good (h : PartialsComplete e) (x : K) : ∀ (ss : List Str) (acc : SMap Str K),
    (∀ s ∈ ss, s ∈ photoShells) → Good false (partialsLoop e x ss acc)
  | [], _, _ => trivial
  | s :: rest, acc, hs => by
    have hrest : ∀ s ∈ rest, s ∈ photoShells := fun s h => hs s (by simp [h])
    unfold partialsLoop
    refine Good.ite (fun hne => ?_) fun heq => ?_
    · have hmem := hs s (by simp)
      unfold photoShells at hmem
      rw [List.mem_append, List.mem_singleton] at hmem
      obtain ⟨b, hb, hv⟩ := h.shell s (hmem.resolve_right hne)
      rw [hb]
      dsimp only
      refine Good.ite (fun _ => partialsLoop_good h x rest _ hrest) fun hn => ?_
      obtain ⟨E, V, h1, h2, h3, h4, h5⟩ := hv (fun h0 => hn (Or.inl h0))
      rw [h1, h2]
      exact (partialValue_good h3 h4 h5 x).bind fun v _ => partialsLoop_good h x rest _ hrest
    · have heq : s = allOther := not_not.mp heq
      subst heq
      obtain ⟨E, V, h1, h2, h3, h4⟩ := h.other
      rw [h1, h2]
      exact (partialValue_other_good h3 h4 x).bind fun v _ => partialsLoop_good h x rest _ hrest

theorem partialsOrZero_good (h : Complete e) (x : K) : Good false (partialsOrZero e x) := by
  unfold partialsOrZero
  refine Good.ite (fun hany => ?_) fun _ => trivial
  rcases h.partials with h0 | h1
  · exfalso
    rw [List.any_eq_true] at hany
    obtain ⟨p, hp, hlen⟩ := hany
    rw [h0 p hp] at hlen
    simp at hlen
  · exact partialsLoop_good h1 x photoShells [] (fun _ h => h)

theorem processValue_good {i1 i2 : Int} {x0 x1 : K} {table : List K} (h0 : 0 ≤ i1) (h1 : i1 < table.length)
    (h2 : 0 ≤ i2) (h3 : i2 < table.length) (x : K) : Good false (processValue (i1, i2, x0, x1) x table) := by
  unfold processValue
  dsimp only
  refine Good.ite (fun _ => vgetI_good h0 h1) fun _ => ?_
  refine (vgetI_good h0 h1).bind fun _ _ => ?_
  exact (vgetI_good h2 h3).bind fun _ _ => trivial

theorem computeMu_good (h : Complete e) (x : K) : Good false (computeMu e x) := by
  obtain ⟨t, ht, h1, h2, h3⟩ := h.table
  unfold computeMu
  refine (partialsOrZero_good h x).bind fun p _ => ?_
  obtain ⟨i1, i2, x0, x1, hb, b0, b12, b2⟩ := bracket_good e.muEnergy h.energies x
  rw [hb, Outcome.ok_bind, ht]
  dsimp only [Option.getD_some]
  refine (processValue_good b0 (by omega) (by omega) (by omega) x).bind fun _ _ => ?_
  refine (processValue_good b0 (by omega) (by omega) (by omega) x).bind fun _ _ => ?_
  exact (processValue_good b0 (by omega) (by omega) (by omega) x).bind fun _ _ => trivial

theorem getMu_good (h : Complete e) (x : K) : Good false (getMu e x) := by
  unfold getMu
  have := h.energies
  rw [if_neg (by omega)]
  refine Good.ite (fun _ => ?_) fun _ => computeMu_good h x
  split
  · trivial
  · exact computeMu_good h x

theorem addTransfers_good (h : Complete e) (k : Str) (hk : ∃ s, e.shells.find? k = some s) (v : K) :
    ∀ (ks : List Str) (vs : List K), (∀ j ∈ ks, j ∈ keys ∧ j.length = 2) → Good false (addTransfers e.shells k v ks vs)
  | [], vs, _ => by unfold addTransfers; trivial
  | j :: ks, [], _ => by unfold addTransfers; trivial
  | j :: ks, w :: vs, hj => by
    obtain ⟨s, hs⟩ := hk
    unfold addTransfers
    refine Good.bind ?_ fun t _ => ?_
    · unfold transfer
      rw [hs]
      dsimp only
      obtain ⟨t, ht⟩ := h.transfers k s hs j (hj j (by simp)).1 (hj j (by simp)).2
      rw [ht]; trivial
    · exact (addTransfers_good h k ⟨s, hs⟩ v ks vs (fun j h => hj j (by simp [h]))).bind fun _ _ => trivial

theorem cascadeLoop_good (h : Complete e) : ∀ (ks : List Str) (vs : List K),
    (∀ k ∈ ks, ∃ s, e.shells.find? k = some s) → (∀ j ∈ ks.tail, j ∈ keys ∧ j.length = 2) →
      Good false (cascadeLoop e.shells ks vs)
  | [], vs, _, _ => by unfold cascadeLoop; trivial
  | k :: ks, [], _, _ => by unfold cascadeLoop; trivial
  | k :: ks, v :: vs, hk, hj => by
    unfold cascadeLoop
    refine Good.bind ?_ fun vs' _ => ?_
    · unfold propagate
      exact Good.ite (fun _ => addTransfers_good h k (hk k (by simp)) v ks vs hj) fun _ => trivial
    · exact (cascadeLoop_good h ks vs' (fun k h => hk k (by simp [h]))
        (fun j h => hj j (by simpa using List.mem_of_mem_tail h))).bind fun _ _ => trivial

theorem tail_keys (n : Nat) : ∀ j ∈ (keys.take n).tail, j ∈ keys ∧ j.length = 2 := by
  intro j hj
  have h1 : j ∈ keys.tail := by
    have : (keys.take n).tail = keys.tail.take (n - 1) := by
      rw [← List.drop_one, ← List.drop_one, List.drop_take]
    rw [this] at hj
    exact List.mem_of_mem_take hj
  exact ⟨List.mem_of_mem_tail h1, (by decide : ∀ j ∈ keys.tail, j.length = 2) j h1⟩

theorem linesOfShell_good (h : Complete e) (u : Bool) (k : Str) (s : Shell K) (hs : e.shells.find? k = some s) (v : K) :
    ∀ (rs : List (Str × K)) (acc : SMap Str (Line K)), (∀ p ∈ rs, p ∈ s.fluorescence) →
      Good false (linesOfShell e u k s v rs acc)
  | [], _, _ => trivial
  | (t, r) :: rest, acc, hr => by
    obtain ⟨h1, ⟨b, hb, hpos⟩, h2⟩ := h.lines k s t r hs (hr (t, r) (by simp))
    obtain ⟨w, hw⟩ := h.yields k s hs
    have hrest : ∀ p ∈ rest, p ∈ s.fluorescence := fun p hp => hr p (by simp [hp])
    unfold linesOfShell
    refine Good.bind ?_ fun rate _ => ?_
    · unfold lineRate
      refine Good.ite (fun _ => ?_) fun _ => trivial
      rw [hw]; trivial
    · refine Good.ite (fun _ => ?_) fun _ => linesOfShell_good h u k s hs v rest acc hrest
      refine Good.bind ?_ fun _ _ => linesOfShell_good h u k s hs v rest _ hrest
      unfold lineEnergy innerEnergy
      rw [hb]
      dsimp only
      rw [if_neg (not_le.mpr hpos), Outcome.ok_bind, if_neg (by omega)]
      refine Good.bind ?_ fun _ _ => trivial
      unfold outerEnergy
      dsimp only
      refine Good.ite (fun _ => ?_) fun _ => trivial
      rw [if_neg (not_lt.mpr h2)]
      trivial

theorem linesLoop_good (h : Complete e) (u : Bool) : ∀ (d : List (Str × K)) (acc : SMap Str (Line K)),
    (∀ p ∈ d, ∃ s, e.shells.find? p.1 = some s) → Good false (linesLoop e u d acc)
  | [], _, _ => trivial
  | (k, v) :: rest, acc, hd => by
    obtain ⟨s, hs⟩ := hd (k, v) (by simp)
    unfold linesLoop
    dsimp only at hs
    rw [hs]
    dsimp only
    exact (linesOfShell_good h u k s hs v s.fluorescence acc (fun _ h => h)).bind fun a _ =>
      linesLoop_good h u rest a (fun p hp => hd p (by simp [hp]))

theorem cachedLoop_good (cache : SMap Str (SMap Str (Line K))) (hc : ∀ k ∈ keys, ∃ l, cache.find? k = some l) :
    ∀ (d : List (Str × K)) (acc : SMap Str (Line K)), (∀ p ∈ d, p.1 ∈ photoShells) → Good false (cachedLoop cache d acc)
  | [], _, _ => trivial
  | (k, v) :: rest, acc, hd => by
    have hrest : ∀ p ∈ rest, p.1 ∈ photoShells := fun p hp => hd p (by simp [hp])
    unfold cachedLoop
    refine Good.ite (fun _ => cachedLoop_good cache hc rest acc hrest) fun hn => ?_
    have hm := hd (k, v) (by simp)
    unfold photoShells at hm
    rw [List.mem_append, List.mem_singleton] at hm
    obtain ⟨l, hl⟩ := hc k (hm.resolve_right (fun h => hn (Or.inr h)))
    rw [hl]
    exact cachedLoop_good cache hc rest _ hrest

theorem getLines_good (h : Complete e) (d : SMap Str K) (hd : ∀ p ∈ d, p.1 ∈ photoShells) (cascade u : Bool) :
    Good false (getLines e d cascade u) := by
  have hz : ∀ (r : List K), ∀ p ∈ (keys.take e.shells.length).zip r, ∃ s, e.shells.find? p.1 = some s := by
    intro r p hp
    exact h.shells p.1 (List.of_mem_zip hp).1
  unfold getLines
  refine Good.ite (fun _ => ?_) fun _ => linesLoop_good h u _ [] (hz _)
  refine Good.ite (fun hc => cachedLoop_good _ (h.cascade hc.1) d [] hd) fun _ => ?_
  unfold getCascade
  refine Good.bind ?_ fun f hf => ?_
  · exact (cascadeLoop_good h _ _ h.shells (tail_keys _)).bind fun _ _ => trivial
  · obtain ⟨r, -, hr⟩ := Outcome.bind_eq_ok.mp hf
    simp only [Outcome.pure_eq, Outcome.ok.injEq] at hr
    subst hr
    exact linesLoop_good h u _ [] (hz r)

theorem vacancies_keys {x : K} {d : SMap Str K} (h : getInitialVacancies e x = .ok d) : ∀ p ∈ d, p.1 ∈ photoShells := by
  unfold getInitialVacancies at h
  obtain ⟨m, -, h⟩ := Outcome.bind_eq_ok.mp h
  simp only [Outcome.pure_eq, Outcome.ok.injEq] at h
  subst h
  intro p hp
  obtain ⟨q, hq, rfl⟩ := List.mem_map.mp (SMap.ofList_mem hp)
  exact hq

theorem computeFactors_good (h : Complete e) (x w : K) : Good false (computeFactors e x w) := by
  unfold computeFactors
  refine Good.bind ?_ fun d hd => ?_
  · unfold getInitialVacancies
    exact (getMu_good h x).bind fun _ _ => trivial
  · refine (getLines_good h d (vacancies_keys hd) true true).bind fun l _ => ?_
    refine Good.ite (fun _ => trivial) fun _ => ?_
    exact (getMu_good h x).bind fun _ _ => trivial

theorem getFactors_good (h : Complete e) (x w : K) : Good false (getFactors e x w) := by
  unfold getFactors
  refine Good.ite (fun _ => ?_) fun _ => computeFactors_good h x w
  split
  · trivial
  · exact computeFactors_good h x w

/-- C78: an element with complete data gives its coefficients, vacancies, lines and excitation factors at every energy,
with any state of its caches. -/
theorem C78_complete_element_answers (h : Complete e) (x w : K) :
    (∃ m, e.getMu x = .ok m) ∧ (∃ d, e.getInitialVacancies x = .ok d) ∧ (∃ f, e.getFactors x w = .ok f) ∧
    ∀ d : SMap Str K, (∀ p ∈ d, p.1 ∈ photoShells) → ∀ cascade useYield, ∃ l, e.getLines d cascade useYield = .ok l := by
  refine ⟨Outcome.good_false_iff.mp (getMu_good h x), ?_, Outcome.good_false_iff.mp (getFactors_good h x w), ?_⟩
  · obtain ⟨m, hm⟩ := Outcome.good_false_iff.mp (getMu_good h x)
    unfold getInitialVacancies
    rw [hm]
    exact ⟨_, rfl⟩
  · intro d hd c u
    exact Outcome.good_false_iff.mp (getLines_good h d hd c u)

end Element
end Fisx
