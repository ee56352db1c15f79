import Verif.InstallProps
import Verif.ElementInterp
import Verif.Good

/-!
# The coefficients of an element after `Elements::setMassAttenuationCoefficients` (properties C104 to C107)
-/

set_option linter.unusedSectionVars false

namespace Fisx
namespace Element

section generic

variable {K : Type} [Field K] [LinearOrder K] [IsStrictOrderedRing K] [Trans K]

/-- The decomposition of a successful call. -/
theorem install_ok {epdl : EPDL97 K} {e : Element K} {energy photo coherent compton pair : List K}
    (h : (e.install epdl energy photo coherent compton pair).1 = .ok ()) :
    ∃ t, epdl.getTable e.atomicNumber = .ok t ∧ (e.setAll t).1 = .ok () ∧
      ((e.setAll t).2.adapt (col t "energy") energy photo coherent compton pair).1 = .ok () ∧
      (e.install epdl energy photo coherent compton pair).2 =
        ((e.setAll t).2.adapt (col t "energy") energy photo coherent compton pair).2 := by
  unfold install at h ⊢
  obtain ⟨t, ht, h, e1⟩ := thenDo_ok h
  rw [e1]
  simp only at h ⊢
  obtain ⟨u, hu, h, e2⟩ := thenDo_ok h
  rw [e2]
  exact ⟨t, ht, hu, h, rfl⟩

theorem kept_lt {table energy : List K} {j : Nat} (h : keptEnergies table energy = .ok j) :
    (0 < j → j + 1 < table.length) ∧ ∀ x ∈ table.take j, ∀ y ∈ energy.head?, x < y := by
  unfold keptEnergies at h
  obtain ⟨x, hx, h⟩ := Outcome.bind_eq_ok.1 h
  obtain ⟨n, hn, h⟩ := Outcome.bind_eq_ok.1 h
  obtain ⟨h1, h2, _⟩ := countBelow_ok x table n hn
  cases h
  refine ⟨by omega, ?_⟩
  intro a ha y hy
  have : x = y := by
    cases energy with
    | nil => simp at hy
    | cons z zs =>
      simp at hy
      subst hy
      simpa [vget] using hx.symm
  subst this
  exact h2 a (List.mem_of_mem_take (i := n - 1) (by
    rw [List.take_take]
    rwa [show min (n - 1) n = n - 1 by omega]))

/-- The element that is asked for the coefficients, when an energy of EPDL97 is kept. -/
theorem reset_same {e : Element K} {t : SMap Str (List K)} (h : (e.setAll t).1 = .ok ())
    (hl : 1 < (col t "energy").length) (E V : List K) :
    ((e.setAll t).2.extractEdges E V).2 = (e.setAll t).2 := by
  apply extractEdges_same
  have := (setAll_ok h).2.2.2.2.2.2.2.2.2.2.1
  exact fun k hk => this k hk hl

theorem each_energy {e : Element K} (hc : e.muCache = []) : ∀ {xs : List K} {ms : List (Mu K)},
    each e.getMu xs = .ok ms → ms.map Mu.energy = xs := by
  intro xs
  induction xs with
  | nil => intro ms h; cases h; rfl
  | cons x xs ih =>
    intro ms h
    unfold each at h
    obtain ⟨m, hm, h⟩ := Outcome.bind_eq_ok.1 h
    obtain ⟨r, hr, h⟩ := Outcome.bind_eq_ok.1 h
    cases h
    have hs : SumInv e := by
      intro y m' hf
      rw [hc] at hf
      cases hf
    simp only [List.map_cons]
    rw [ih hr, (getMu_sums hs hm).1]

theorem extractEdges_cache (e : Element K) (E V : List K) : (e.extractEdges E V).2.muCache = e.muCache ∧
    (e.extractEdges E V).2.cacheOn = e.cacheOn := by
  unfold extractEdges
  split_ifs <;> exact ⟨rfl, rfl⟩

/-- Where the energies of the new table come from. -/
theorem gridLoop_get (edges : SMap Str (K × Nat)) (b : SMap Str K) (ext : Bool) : ∀ (xs : List K) (t : Nat) (p : K) (n : Nat)
    (x : K), xs[n]? = some x → ∃ y, (gridLoop edges b ext xs t p)[n]? = some y ∧
      (y = aboveEdge edges b (t + n) x ∨
        (ext = true ∧ ∃ q, (p :: gridLoop edges b ext xs t p)[n]? = some q ∧ aboveEdge edges b (t + n) x < q ∧
          y = q + 1 / 1000000)) := by
  intro xs
  induction xs with
  | nil => intro t p n x h; simp at h
  | cons a xs ih =>
    intro t p n x h
    cases n with
    | zero =>
      simp only [List.getElem?_cons_zero, Option.some.injEq] at h
      subst h
      unfold gridLoop
      simp only [List.getElem?_cons_zero, Option.some.injEq, exists_eq_left', Nat.add_zero]
      cases ext with
      | false => simp
      | true =>
        simp only [if_true]
        split_ifs with hlt
        · exact Or.inr ⟨trivial, hlt, rfl⟩
        · exact Or.inl rfl
    | succ n =>
      simp only [List.getElem?_cons_succ] at h
      unfold gridLoop
      simp only [List.getElem?_cons_succ]
      obtain ⟨y, hy, hc⟩ := ih (t + 1) _ n x h
      refine ⟨y, hy, ?_⟩
      rw [show t + (n + 1) = t + 1 + n by omega]
      exact hc

theorem aboveEdge_cases (edges : SMap Str (K × Nat)) (b : SMap Str K) (t : Nat) (x : K) :
    aboveEdge edges b t x = x ∨ ∃ s y i, edges.find? s = some (y, i) ∧ t = i + 1 ∧ y < at0 b s ∧
      aboveEdge edges b t x = at0 b s := by
  unfold aboveEdge
  have key : ∀ (ss : List Str) (v : K), (v = x ∨ ∃ s y i, edges.find? s = some (y, i) ∧ t = i + 1 ∧ y < at0 b s ∧
      v = at0 b s) →
      (ss.foldl (fun v s =>
        match edges.find? s with
        | some (y, i) => if t = i + 1 ∧ y < at0 b s then at0 b s else v
        | none => v) v = x ∨ ∃ s y i, edges.find? s = some (y, i) ∧ t = i + 1 ∧ y < at0 b s ∧
      ss.foldl (fun v s =>
        match edges.find? s with
        | some (y, i) => if t = i + 1 ∧ y < at0 b s then at0 b s else v
        | none => v) v = at0 b s) := by
    intro ss
    induction ss with
    | nil => intro v h; exact h
    | cons s ss ih =>
      intro v h
      simp only [List.foldl_cons]
      apply ih
      cases hf : edges.find? s with
      | none => exact h
      | some p =>
        obtain ⟨y, i⟩ := p
        simp only
        split_ifs with hc
        · exact Or.inr ⟨s, y, i, hf, hc.1, hc.2, rfl⟩
        · exact h
  exact key photoShells x (Or.inl rfl)

/-- **C104** After a call that returns, the table of the element consists of a first part of the energies of EPDL97, all
below the first supplied one, with the values of EPDL97, and of one point for each supplied energy with the supplied
coefficients. -/
theorem C104_table (epdl : EPDL97 K) (e : Element K) (energy photo coherent compton pair : List K)
    (h : (e.install epdl energy photo coherent compton pair).1 = .ok ()) :
    ∃ t j T ms, epdl.getTable e.atomicNumber = .ok t ∧
      (e.install epdl energy photo coherent compton pair).2.mu = some T ∧
      (e.install epdl energy photo coherent compton pair).2.muEnergy.length = j + energy.length ∧
      (e.install epdl energy photo coherent compton pair).2.muEnergy.take j = (col t "energy").take j ∧
      j ≤ (col t "energy").length ∧
      (∀ x ∈ (col t "energy").take j, ∀ y ∈ energy.head?, x < y) ∧
      each (e.setAll t).2.getMu ((col t "energy").take j) = .ok ms ∧
      T.coherent = ms.map Mu.coherent ++ coherent.take energy.length ∧
      T.compton = ms.map Mu.compton ++ compton.take energy.length ∧
      T.pair = ms.map Mu.pair ++ pair.take energy.length ∧
      T.photoelectric = ms.map Mu.photoelectric ++ photo ∧
      photo.length = energy.length ∧ energy.length ≤ coherent.length ∧ energy.length ≤ compton.length ∧
      energy.length ≤ pair.length := by
  obtain ⟨t, ht, hr, ha, he⟩ := install_ok h
  obtain ⟨j, edges, ms, T, hj, hx, hms, hml, hne, hpl, hjt, l1, l2, l3, hset, hfin, c1, c2, c3, c4, c5, _⟩ := adapt_ok ha
  rw [he, hfin]
  obtain ⟨s1, s2, s3, s4, s5, s6, s7, s8, ⟨M, m1, m2, m3, m4, m5, _⟩, _⟩ := setAll_ok hset
  have hc : ((e.setAll t).2.extractEdges energy photo).2.muCache = [] := by
    rw [(extractEdges_cache _ _ _).1]; exact (setAll_ok hr).2.2.2.2.2.2.2.1
  have hen := each_energy hc hms
  have hpos : 0 < energy.length := List.length_pos_of_ne_nil hne
  have htl : ((col t "energy").take j).length = j := by rw [List.length_take]; omega
  have hsplit : ∃ a, each ((e.setAll t).2.extractEdges energy photo).2.getMu ((col t "energy").take j) = .ok a ∧
      ms.take j = a := by
    unfold newGrid at hms
    rw [each_append] at hms
    obtain ⟨a, ha, hms⟩ := Outcome.bind_eq_ok.1 hms
    obtain ⟨b, hb, hms⟩ := Outcome.bind_eq_ok.1 hms
    have hms : a ++ b = ms := by simpa using hms
    refine ⟨a, ha, ?_⟩
    have : a.length = j := by rw [each_length ha, htl]
    rw [← hms, List.take_left' this]
  obtain ⟨a, ha', hat⟩ := hsplit
  refine ⟨t, j, M, a, ht, m1, ?_, ?_, hjt, (kept_lt hj).2, ?_, ?_, ?_, ?_, ?_, hpl, l1, l2, l3⟩
  · rw [s5, c1, List.length_map, hml]
  · rw [s5, c1, hen]
    unfold newGrid
    exact List.take_left' htl
  · by_cases hj0 : j = 0
    · subst hj0
      simpa [each] using ha'
    · rw [reset_same hr (by have := (kept_lt hj).1 (by omega); omega)] at ha'
      exact ha'
  · rw [m2, c2, hat]
  · rw [m3, c3, hat]
  · rw [m4, c4, hat, if_pos (by rw [List.length_append, List.length_take]; omega)]
  · rw [m5, c5, hat]

/-- **C104** (energies) The point of the table for a supplied energy is at this energy, or at the binding energy of a shell
whose edge, in the supplied table, is the previous point and lies less than 0.1 keV below the binding energy, or, when the
previous point is above it, 0.001 eV above the previous point. -/
theorem C104_energies (epdl : EPDL97 K) (e : Element K) (energy photo coherent compton pair : List K)
    (h : (e.install epdl energy photo coherent compton pair).1 = .ok ()) :
    ∃ j, (e.install epdl energy photo coherent compton pair).2.muEnergy.length = j + energy.length ∧
      ∀ n x, energy[n]? = some x → ∃ y, (e.install epdl energy photo coherent compton pair).2.muEnergy[j + n]? = some y ∧
        (y = x ∨
          (∃ s z i, n = i + 1 ∧ IsJump energy photo z i ∧ z < at0 e.binding s ∧ at0 e.binding s < z + 1 / 10 ∧
            y = at0 e.binding s) ∨
          (0 < j ∧ ∃ q, (e.install epdl energy photo coherent compton pair).2.muEnergy[j + n - 1]? = some q ∧
            x < q ∧ y = q + 1 / 1000000)) := by
  obtain ⟨t, ht, hr, ha, he⟩ := install_ok h
  obtain ⟨j, edges, ms, T, hj, hx, hms, hml, hne, hpl, hjt, l1, l2, l3, hset, hfin, c1, c2, c3, c4, c5, _⟩ := adapt_ok ha
  rw [he, hfin]
  obtain ⟨s1, s2, s3, s4, s5, s6, s7, s8, _⟩ := setAll_ok hset
  have hc : ((e.setAll t).2.extractEdges energy photo).2.muCache = [] := by
    rw [(extractEdges_cache _ _ _).1]; exact (setAll_ok hr).2.2.2.2.2.2.2.1
  have hen := each_energy hc hms
  have hat : ∀ k, at0 ((e.setAll t).2.extractEdges energy photo).2.binding k = at0 e.binding k := by
    intro k
    rw [(C102_errors _ _ _).2.2.1 k]
    exact (setAll_ok hr).2.2.2.2.2.2.2.2.2.1 k
  refine ⟨j, by rw [s5, c1, List.length_map, hml], ?_⟩
  intro n x hnx
  rw [s5, c1, hen]
  unfold newGrid
  have htl : ((col t "energy").take j).length = j := by rw [List.length_take]; omega
  obtain ⟨y, hy, hcase⟩ := gridLoop_get edges ((e.setAll t).2.extractEdges energy photo).2.binding (decide (j > 0)) energy 0
    (((col t "energy").take j).getLastD 0) n x hnx
  refine ⟨y, ?_, ?_⟩
  · rw [List.getElem?_append_right (by omega), htl, Nat.add_sub_cancel_left]
    exact hy
  · have habove := aboveEdge_cases edges ((e.setAll t).2.extractEdges energy photo).2.binding n x
    rcases hcase with hcase | ⟨hext, q, hq, hlt, hyq⟩
    · rw [Nat.zero_add] at hcase
      rcases habove with h0 | ⟨s, z, i, h1, h2, h3, h4⟩
      · exact Or.inl (hcase.trans h0)
      · obtain ⟨_, f2, _, _, f5⟩ := (C102_edges _ _ _ _ hx s z i).1 h1
        refine Or.inr (Or.inl ⟨s, z, i, h2, f2, ?_, ?_, ?_⟩)
        · rw [← hat]; exact h3
        · rw [(setAll_ok hr).2.2.2.2.2.2.2.2.2.1 s] at f5
          have := (abs_lt.1 f5).1
          linarith
        · rw [← hat, hcase, h4]
    · have hj0 : 0 < j := by simpa using hext
      have hxq : x < q := by
        rw [Nat.zero_add] at hlt
        rcases habove with h0 | ⟨s, z, i, h1, h2, h3, h4⟩
        · rwa [h0] at hlt
        · obtain ⟨_, f2, _, _, _⟩ := (C102_edges _ _ _ _ hx s z i).1 h1
          have hz : x = z := by
            have := f2.2.1
            rw [← h2, hnx] at this
            simpa using this
          rw [h4] at hlt
          rw [hz]
          exact lt_trans h3 hlt
      refine Or.inr (Or.inr ⟨hj0, q, ?_, hxq, hyq⟩)
      cases n with
      | zero =>
        simp only [List.getElem?_cons_zero, Option.some.injEq] at hq
        rw [Nat.add_zero, List.getElem?_append_left (by omega), ← hq]
        rw [List.getLastD_eq_getLast?, List.getLast?_eq_getElem?, htl]
        rw [List.getElem?_eq_getElem (by omega)]
        rfl
      | succ n =>
        simp only [List.getElem?_cons_succ] at hq
        rw [show j + (n + 1) - 1 = j + n by omega, List.getElem?_append_right (by omega), htl, Nat.add_sub_cancel_left]
        exact hq

/-! ## Consistency of the partial coefficients -/

theorem edges_allOther {e : Element K} {E V : List K} {edges : SMap Str (K × Nat)} (h : (e.extractEdges E V).1 = .ok edges) :
    edges.find? allOther = none := by
  cases hf : edges.find? allOther with
  | none => rfl
  | some y =>
    exfalso
    obtain ⟨h1, _⟩ := (C102_edges e E V edges h allOther y.1 y.2).1 hf
    have h2 := List.mem_of_getElem? h1
    revert h2
    decide +kernel

/-- **C105** violated: when an edge is found in the supplied table, the table of the shells other than K, L and M stays the
one of EPDL97, whatever the supplied photoelectric coefficients are. -/
theorem C105_violated (epdl : EPDL97 K) (e : Element K) (energy photo coherent compton pair : List K)
    (h : (e.install epdl energy photo coherent compton pair).1 = .ok ())
    (t : SMap Str (List K)) (ht : epdl.getTable e.atomicNumber = .ok t) (hl : 1 < (col t "energy").length)
    (edges : SMap Str (K × Nat)) (hx : ((e.setAll t).2.extractEdges energy photo).1 = .ok edges) (hne : edges ≠ []) :
    ∃ ms, each (e.setAll t).2.getMu (e.install epdl energy photo coherent compton pair).2.muEnergy = .ok ms ∧
      (e.install epdl energy photo coherent compton pair).2.partialE.find? "all other".toList
        = some (e.install epdl energy photo coherent compton pair).2.muEnergy ∧
      (e.install epdl energy photo coherent compton pair).2.partialV.find? "all other".toList
        = some (ms.map (fun m => at0 m.partials "all other".toList)) := by
  obtain ⟨t', ht', hr, ha, he⟩ := install_ok h
  rw [ht] at ht'
  obtain rfl : t = t' := by simpa using ht'
  obtain ⟨j, edges', ms, T, hj, hx', hms, hml, hne', hpl, hjt, l1, l2, l3, hset, hfin, c1, c2, c3, c4, c5, c6⟩ := adapt_ok ha
  rw [he, hfin]
  rw [hx] at hx'
  obtain rfl : edges = edges' := by simpa using hx'
  obtain ⟨s1, s2, s3, s4, s5, s6, s7, s8, _, _, _, s12, s13, _⟩ := setAll_ok hset
  have hc : ((e.setAll t).2.extractEdges energy photo).2.muCache = [] := by
    rw [(extractEdges_cache _ _ _).1]; exact (setAll_ok hr).2.2.2.2.2.2.2.1
  have hen := each_energy hc hms
  refine ⟨ms, ?_, ?_, ?_⟩
  · rw [s5, c1, hen]
    rw [reset_same hr hl] at hms ⊢
    exact hms
  · rw [s5]; exact s12
  · obtain ⟨c, hc', hT⟩ := c6 allOther (by decide +kernel)
    unfold shellColumn at hc'
    rw [if_pos (List.length_pos_of_ne_nil hne), edges_allOther hx] at hc'
    obtain rfl : ms.map (fun m => at0 m.partials allOther) = c := by simpa using hc'
    rw [hT] at s13
    exact s13

/-! ## Failures -/

theorem keptEnergies_ok {table : List K} {x : K} {xs : List K} (h : ∃ y ∈ table, ¬ y < x) :
    ∃ j, keptEnergies table (x :: xs) = .ok j := by
  have : ∃ n, countBelow x table = .ok n := by
    induction table with
    | nil => simp at h
    | cons a r ih =>
      unfold countBelow
      split_ifs with ha
      · obtain ⟨y, hy, hyx⟩ := h
        rcases List.mem_cons.1 hy with rfl | hy
        · exact absurd ha hyx
        · obtain ⟨n, hn⟩ := ih ⟨y, hy, hyx⟩
          exact ⟨n + 1, by rw [hn]; rfl⟩
      · exact ⟨0, rfl⟩
  obtain ⟨n, hn⟩ := this
  refine ⟨n - 1, ?_⟩
  unfold keptEnergies
  simp [vget, hn]

/-- **C106** violated: a call that throws because the numbers of energies and of photoelectric coefficients differ has
already replaced the coefficients of the element by those of EPDL97. -/
theorem C106_violated (epdl : EPDL97 K) (e : Element K) (x : K) (xs photo coherent compton pair : List K)
    (t : SMap Str (List K)) (ht : epdl.getTable e.atomicNumber = .ok t) (hr : (e.setAll t).1 = .ok ())
    (hx : ∃ y ∈ col t "energy", ¬ y < x) (hl : photo.length ≠ (x :: xs).length) :
    (e.install epdl (x :: xs) photo coherent compton pair).1 = .throw .runtimeError ∧
    (e.install epdl (x :: xs) photo coherent compton pair).2.muEnergy = col t "energy" := by
  obtain ⟨j, hj⟩ := keptEnergies_ok (xs := xs) hx
  have hthrow : ((e.setAll t).2.extractEdges (x :: xs) photo).1 = .throw .runtimeError :=
    (C102_errors _ _ _).1.2 (Or.inr (Or.inr (Or.inl (fun h => hl h.symm))))
  have hen : ∀ (E V : List K), ((e.setAll t).2.extractEdges E V).2.muEnergy = (e.setAll t).2.muEnergy := by
    intro E V
    unfold extractEdges
    split_ifs <;> rfl
  have : e.install epdl (x :: xs) photo coherent compton pair =
      (.throw .runtimeError, ((e.setAll t).2.extractEdges (x :: xs) photo).2) := by
    unfold install
    rw [ht]
    simp only [thenDo]
    rw [hr]
    simp only
    unfold adapt
    rw [hj]
    simp only [thenDo]
    rw [hthrow]
  rw [this]
  exact ⟨rfl, by rw [hen]; exact (setAll_ok hr).2.2.2.2.1⟩

/-- **C106** (part that holds) When EPDL97 has no data for the element, the call throws or goes astray before it changes
anything. -/
theorem C106_partial (epdl : EPDL97 K) (e : Element K) (energy photo coherent compton pair : List K)
    (h : ∀ t, epdl.getTable e.atomicNumber ≠ .ok t) :
    (e.install epdl energy photo coherent compton pair).1 ≠ .ok () ∧
    (e.install epdl energy photo coherent compton pair).2 = e := by
  unfold install
  cases ht : epdl.getTable e.atomicNumber with
  | ok t => exact absurd ht (h t)
  | throw x => exact ⟨by simp [thenDo], rfl⟩
  | ub u => exact ⟨by simp [thenDo], rfl⟩
  | diverge => exact ⟨by simp [thenDo], rfl⟩

/-- **C107** violated: a call without energies reads an element that does not exist. -/
theorem C107_no_energies_violated (epdl : EPDL97 K) (e : Element K) (photo coherent compton pair : List K)
    (t : SMap Str (List K)) (ht : epdl.getTable e.atomicNumber = .ok t) (hr : (e.setAll t).1 = .ok ()) :
    (e.install epdl [] photo coherent compton pair).1 = .ub .outOfBounds := by
  unfold install
  rw [ht]
  simp only [thenDo]
  rw [hr]
  simp only
  rfl

theorem countBelow_ub {x : K} : ∀ {l : List K}, (∀ y ∈ l, y < x) → countBelow x l = .ub .outOfBounds := by
  intro l
  induction l with
  | nil => intro _; rfl
  | cons a r ih =>
    intro h
    unfold countBelow
    rw [if_pos (h a List.mem_cons_self), ih (fun y hy => h y (List.mem_cons_of_mem _ hy))]
    rfl

/-- **C107** violated: so does a call with energies that begin above all the energies of EPDL97. -/
theorem C107_high_energies_violated (epdl : EPDL97 K) (e : Element K) (x : K) (xs photo coherent compton pair : List K)
    (t : SMap Str (List K)) (ht : epdl.getTable e.atomicNumber = .ok t) (hr : (e.setAll t).1 = .ok ())
    (hx : ∀ y ∈ col t "energy", y < x) :
    (e.install epdl (x :: xs) photo coherent compton pair).1 = .ub .outOfBounds := by
  have : keptEnergies (col t "energy") (x :: xs) = .ub .outOfBounds := by
    unfold keptEnergies
    have : vget (x :: xs) 0 = .ok x := rfl
    rw [this, Outcome.ok_bind, countBelow_ub hx]
    rfl
  unfold install
  rw [ht]
  simp only [thenDo]
  rw [hr]
  simp only
  unfold adapt
  rw [this]
  rfl

/-- **C107** violated: so does a call with fewer pair coefficients than energies, in particular one without pair
coefficients, even if it returns with enough of them. -/
theorem C107_pair_violated (epdl : EPDL97 K) (e : Element K) (energy photo coherent compton pair pair' : List K)
    (h : (e.install epdl energy photo coherent compton pair').1 = .ok ()) (hl : pair.length < energy.length) :
    (e.install epdl energy photo coherent compton pair).1 = .ub .outOfBounds := by
  obtain ⟨t, ht, hr, ha, _⟩ := install_ok h
  unfold install
  rw [ht]
  simp only [thenDo]
  rw [hr]
  simp only
  unfold adapt at ha ⊢
  obtain ⟨j, hj, ha, _⟩ := thenDo_ok ha
  simp only at ha
  obtain ⟨edges, hx, ha, _⟩ := thenDo_ok ha
  obtain ⟨T, hT, _, _⟩ := thenDo_ok ha
  rw [hj]
  simp only [thenDo]
  rw [hx]
  simp only
  have hjt : j ≤ (col t "energy").length := by
    unfold keptEnergies at hj
    obtain ⟨x, _, hj⟩ := Outcome.bind_eq_ok.1 hj
    obtain ⟨n, hn, hj⟩ := Outcome.bind_eq_ok.1 hj
    have := (countBelow_ok x _ n hn).1
    cases hj
    omega
  have hgl : ∀ b : SMap Str K, (newGrid edges b (col t "energy") energy j).length = j + energy.length := by
    intro b
    unfold newGrid
    rw [List.length_append, gridLoop_length, List.length_take]
    omega
  have : newTable ((e.setAll t).2.extractEdges energy photo).2 edges (col t "energy") j energy photo coherent compton pair
      = .ub .outOfBounds := by
    unfold newTable at hT ⊢
    simp only at hT ⊢
    obtain ⟨m, hm, hT⟩ := Outcome.bind_eq_ok.1 hT
    rw [hm]
    simp only [Outcome.ok_bind]
    have hpl : (col m "pair").length = j + energy.length := by
      rw [C75_element_coefficients] at hm
      obtain ⟨ms, hms, hm⟩ := Outcome.bind_eq_ok.1 hm
      have hm : columnsOf muKeys (ms.map muMap) = m := by
        rw [if_neg (by intro hc; have := hgl ((e.setAll t).2.extractEdges energy photo).2.binding; rw [hc] at this; simp at this; omega)] at hm
        simpa using hm
      unfold col
      rw [← hm, columnsOf_find (by decide +kernel)]
      simp only [Option.getD_some, List.length_map]
      rw [each_length hms, hgl]
    split_ifs at hT ⊢ with hc
    obtain ⟨coh, p1, hT⟩ := Outcome.bind_eq_ok.1 hT
    obtain ⟨com, p2, hT⟩ := Outcome.bind_eq_ok.1 hT
    rw [p1, p2]
    simp only [Outcome.ok_bind]
    have hp := paste_eq pair j energy.length 0 (col m "pair") (by omega)
    rw [Nat.add_zero, if_neg (by omega)] at hp
    rw [hgl, show j + energy.length - j = energy.length by omega, hp]
    rfl
  rw [this]

open Outcome (Good)

theorem setPartial_good (e : Element K) (s : Str) (E V : List K) : Good true (e.setPartial s E V).1 := by
  unfold setPartial
  split_ifs <;> first | exact rfl | exact trivial

theorem thenDo_good {α σ : Type} {o : Outcome α} {s : σ} {f : α → Outcome Unit × σ} (ho : Good true o)
    (hf : ∀ a, o = .ok a → Good true (f a).1) : Good true (thenDo o s f).1 := by
  cases o with
  | ok a => exact hf a rfl
  | throw x => exact rfl
  | ub u => exact ho
  | diverge => exact ho

theorem setAll_good (e : Element K) (t : SMap Str (List K)) : Good true (e.setAll t).1 := by
  have hp : ∀ (ss : List Str) (e : Element K), Good true (setPartials t ss e).1 := by
    intro ss
    induction ss with
    | nil => intro e; exact trivial
    | cons s ss ih =>
      intro e
      unfold setPartials
      exact thenDo_good (setPartial_good _ _ _ _) (fun _ _ => ih _)
  unfold setAll
  refine thenDo_good ?_ (fun _ _ => hp _ _)
  unfold setMassAttenuationCoefficients
  split_ifs <;> first | exact rfl | exact trivial

theorem each_good {α β : Type} {f : α → Outcome β} {b : Bool} (h : ∀ x, Good b (f x)) : ∀ xs, Good b (each f xs) := by
  intro xs
  induction xs with
  | nil => exact trivial
  | cons x xs ih =>
    unfold each
    exact (h x).bind (fun _ _ => ih.bind (fun _ _ => trivial))

theorem rescale_good {old photo : List K} {j : Nat} : ∀ (n i : Nat) (dst : List K), j ≤ i → i + n ≤ old.length →
    i + n ≤ dst.length → i + n ≤ j + photo.length → Good true (rescale old photo j n i dst) := by
  intro n
  induction n with
  | zero => intro i dst _ _ _ _; exact trivial
  | succ n ih =>
    intro i dst h0 h1 h2 h3
    unfold rescale
    refine Good.bind ?_ (fun y _ => ih (i + 1) (dst.set i y) (by omega) (by omega) (by rw [List.length_set]; omega) (by omega))
    unfold rescaled
    refine (vget_good (by omega)).bind (fun t _ => ?_)
    refine Good.ite (fun _ => ?_) (fun _ => trivial)
    exact (vget_good (by omega)).bind (fun _ _ => (vget_good (by omega)).bind (fun _ _ => trivial))

/-- **C107** (part that holds) With at least one energy, the first of them not above all the energies of EPDL97, and at
least as many coherent, Compton and pair coefficients as energies, the call returns or throws, provided that the element
with the EPDL97 values can be asked for its coefficients at every energy. -/
theorem C107_partial (epdl : EPDL97 K) (e : Element K) (energy photo coherent compton pair : List K)
    (t : SMap Str (List K)) (ht : epdl.getTable e.atomicNumber = .ok t) (hl : 1 < (col t "energy").length)
    (hmu : ∀ x, ∃ m, (e.setAll t).2.getMu x = .ok m)
    (hx : ∃ x ∈ energy.head?, ∃ y ∈ col t "energy", ¬ y < x)
    (h1 : energy.length ≤ coherent.length) (h2 : energy.length ≤ compton.length) (h3 : energy.length ≤ pair.length) :
    (e.install epdl energy photo coherent compton pair).1 = .ok () ∨
    ∃ exc, (e.install epdl energy photo coherent compton pair).1 = .throw exc := by
  have hgood : Good true (e.install epdl energy photo coherent compton pair).1 := by
    unfold install
    rw [ht]
    refine thenDo_good trivial (fun t' ht' => ?_)
    obtain rfl : t = t' := by simpa using ht'
    simp only
    refine thenDo_good (setAll_good _ _) (fun u hu => ?_)
    unfold adapt
    refine thenDo_good ?_ (fun j hj => ?_)
    · obtain ⟨x, hx, hy⟩ := hx
      cases energy with
      | nil => simp at hx
      | cons z zs =>
        simp at hx
        subst hx
        obtain ⟨j, hj⟩ := keptEnergies_ok (xs := zs) hy
        rw [hj]
        trivial
    · simp only
      refine thenDo_good ?_ (fun edges hed => ?_)
      · by_cases hc : energy = [] ∨ photo = [] ∨ energy.length ≠ photo.length ∨ (e.setAll t).2.binding = []
        · rw [(C102_errors _ _ _).1.2 hc]; rfl
        · obtain ⟨edges, hed⟩ := (C102_errors _ _ _).2.1 hc
          rw [hed]; trivial
      · refine thenDo_good ?_ (fun _ _ => setAll_good _ _)
        have hlen : photo.length = energy.length := by
          have : ¬ ((e.setAll t).2.extractEdges energy photo).1 = .throw .runtimeError := by rw [hed]; simp
          rw [(C102_errors _ _ _).1] at this
          simp only [not_or, not_not] at this
          exact this.2.2.1.symm
        have hjt : j ≤ (col t "energy").length := by
          unfold keptEnergies at hj
          obtain ⟨x, _, hj⟩ := Outcome.bind_eq_ok.1 hj
          obtain ⟨n, hn, hj⟩ := Outcome.bind_eq_ok.1 hj
          have := (countBelow_ok x _ n hn).1
          cases hj
          omega
        rw [reset_same hu hl]
        have hgl : (newGrid edges (e.setAll t).2.binding (col t "energy") energy j).length = j + energy.length := by
          unfold newGrid
          rw [List.length_append, gridLoop_length, List.length_take]
          omega
        have hne : energy ≠ [] := by
          rintro rfl
          obtain ⟨x, hx, _⟩ := hx
          simp at hx
        have hpos : 0 < energy.length := List.length_pos_of_ne_nil hne
        unfold newTable
        simp only
        have hmus : ∃ ms, each (e.setAll t).2.getMu (newGrid edges (e.setAll t).2.binding (col t "energy") energy j) = .ok ms :=
          Outcome.good_false_iff.1 (each_good (fun x => Outcome.good_false_iff.2 (hmu x)) _)
        obtain ⟨ms, hms⟩ := hmus
        have hml := each_length hms
        rw [hgl] at hml
        have hcolumns : (e.setAll t).2.getMus (newGrid edges (e.setAll t).2.binding (col t "energy") energy j)
            = .ok (columnsOf muKeys (ms.map muMap)) := by
          rw [C75_element_coefficients, hms]
          simp only [Outcome.bind]
          rw [if_neg (by intro hc; rw [hc] at hgl; simp at hgl; omega)]
        rw [hcolumns, Outcome.ok_bind]
        have hcl : ∀ k ∈ muKeys, ((columnsOf muKeys (ms.map muMap)).find? k).getD [] = (ms.map muMap).map (fun m => at0 m k) := by
          intro k hk
          rw [columnsOf_find hk]
          rfl
        have hcl' : ∀ k ∈ muKeys, (((columnsOf muKeys (ms.map muMap)).find? k).getD []).length = j + energy.length := by
          intro k hk
          rw [hcl k hk, List.length_map, List.length_map, hml]
        have hpaste : ∀ (src dst : List K), energy.length ≤ src.length → dst.length = j + energy.length →
            Good true (paste src j (j + energy.length - j) j dst) := by
          intro src dst hs hd
          have := paste_eq src j energy.length 0 dst (by omega)
          rw [Nat.add_zero, if_pos (Or.inr (by omega))] at this
          rw [show j + energy.length - j = energy.length by omega, this]
          trivial
        refine Good.ite (fun _ => rfl) (fun _ => ?_)
        rw [hgl]
        refine (hpaste _ _ h1 (hcl' _ (by decide +kernel))).bind (fun coh _ => ?_)
        refine (hpaste _ _ h2 (hcl' _ (by decide +kernel))).bind (fun com _ => ?_)
        refine (hpaste _ _ h3 (hcl' _ (by decide +kernel))).bind (fun pai _ => ?_)
        refine (hpaste _ _ (by omega) (hcl' _ (by decide +kernel))).bind (fun pho _ => ?_)
        have hol : (col (columnsOf muKeys (ms.map muMap)) "photoelectric").length = j + energy.length :=
          hcl' _ (by decide +kernel)
        have hidx : ∀ s y, edges.find? s = some y → y.2 + 1 < energy.length := by
          intro s y hy
          have := ((C102_edges _ _ _ _ hed s y.1 y.2).1 hy).2.1.2.1
          exact (List.getElem?_eq_some_iff.1 this).1
        have key : ∀ (ss : List Str) (m : SMap Str (List K)), ss.Nodup →
            (∀ s ∈ ss, ((m.find? s).getD []).length = j + energy.length) →
            Good true (shellColumns edges (col (columnsOf muKeys (ms.map muMap)) "photoelectric") photo j
              (j + energy.length) ss m) := by
          intro ss
          induction ss with
          | nil => intro m _ _; exact trivial
          | cons s ss ih =>
            intro m hnd hm
            obtain ⟨hs, hnd'⟩ := List.nodup_cons.1 hnd
            unfold shellColumns
            refine Good.bind ?_ (fun c _ => ih _ hnd' ?_)
            · have hsl := hm s List.mem_cons_self
              unfold shellColumn
              refine Good.ite (fun _ => ?_) (fun _ => rescale_good _ _ _ (by omega) (by omega) (by omega) (by omega))
              cases hf : edges.find? s with
              | none => exact trivial
              | some y =>
                have := hidx s y hf
                simp only
                exact rescale_good _ _ _ (by omega) (by omega)
                  (by rw [List.length_append, List.length_replicate, List.length_drop]; omega) (by omega)
            · intro s' hs'
              rw [SMap.find?_insert, if_neg (by rintro rfl; exact hs hs')]
              exact hm s' (List.mem_cons_of_mem _ hs')
        refine key photoShells _ photoShells_nodup ?_
        intro s hs
        have hne : ∀ s ∈ photoShells, s ≠ "coherent".toList ∧ s ≠ "compton".toList ∧ s ≠ "pair".toList ∧
            s ≠ "photoelectric".toList := by decide +kernel
        obtain ⟨n1, n2, n3, n4⟩ := hne s hs
        simp only [SMap.find?_insert]
        rw [if_neg (fun h => n4 h.symm), if_neg (fun h => n3 h.symm), if_neg (fun h => n2 h.symm),
          if_neg (fun h => n1 h.symm)]
        exact hcl' s (List.mem_append_left _ hs)
  rcases Outcome.good_true_iff.1 hgood with ⟨a, ha⟩ | h
  · exact Or.inl ha
  · exact Or.inr h

end generic

end Element
end Fisx
