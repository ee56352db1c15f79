import Verif.InstallTable
import Verif.ElementThreshold

/-!
# Queries after `Elements::setMassAttenuationCoefficients` (properties C104 and C105)

Here the numbers are real and `log`, `exp` are the real functions.
-/

set_option linter.unusedSectionVars false

namespace Fisx
namespace Element

/-! ## Lemmas -/

/-- A coherent, Compton or pair coefficient at a tabulated energy. -/
theorem process_at {E table : List ℝ} (h : GoodTable E) (hlen : table.length = E.length) {k : Nat} {x y : ℝ}
    (hx : E[k]? = some x) (hy : table[k]? = some y) (hc : (∀ z ∈ table, 0 < z) ∨ y = 0) :
    (do let b ← bracket E x; processValue b x table) = .ok y := by
  obtain ⟨hk, rfl⟩ := List.getElem?_eq_some_iff.1 hx
  obtain ⟨hk', rfl⟩ := List.getElem?_eq_some_iff.1 hy
  rcases hc with hc | hc
  · exact (C22_process_interpolates h hlen hc).1 k hk hk'
  · by_cases h0 : k = 0
    · subst h0
      have hk2 : 0 + 1 < E.length := h.1
      rw [good_bracket h hk2 (Or.inr ⟨rfl, rfl⟩)]
      simp only [Outcome.ok_bind]
      unfold processValue
      simp only
      have hgap := good_lt h hk hk2 (by omega)
      rw [if_neg (by
        rintro (hh | hh)
        · omega
        · linarith)]
      have e0 : ((0 : Nat) : Int) = 0 := rfl
      have e1 : (((0 : Nat) : Int) + 1) = ((1 : Nat) : Int) := rfl
      rw [vgetI_nat table 0 hk', e1, vgetI_nat table 1 (by omega)]
      simp only [Outcome.ok_bind, Outcome.pure_eq]
      unfold logLogGuarded
      rw [hc, if_neg (by simp), if_neg (by simp)]
    · obtain ⟨j, rfl⟩ : ∃ j, k = j + 1 := ⟨k - 1, by omega⟩
      have hlt := good_lt h (by omega : j < E.length) hk (by omega)
      rw [good_bracket h hk (Or.inl ⟨by linarith, le_refl _⟩)]
      simp only [Outcome.ok_bind]
      unfold processValue
      simp only
      rw [if_neg (by
        rintro (hh | hh)
        · omega
        · linarith)]
      have e1 : ((j : Int) + 1) = ((j + 1 : Nat) : Int) := by push_cast; ring
      rw [vgetI_nat table j (by omega), e1, vgetI_nat table (j + 1) (by omega)]
      simp only [Outcome.ok_bind, Outcome.pure_eq]
      unfold logLogGuarded
      rw [hc, if_neg (by simp), if_neg (by simp)]

/-- The partial coefficient of a bound shell at a tabulated energy with a positive value that is not the last one. -/
theorem partial_at {E V : List ℝ} (h : GoodTable E) (hlen : V.length = E.length) {k : Nat} (hk : k + 1 < E.length) {x y : ℝ}
    (hx : E[k]? = some x) (hy : V[k]? = some y) (hpos : 0 < y) : partialValue false E V x = .ok y := by
  obtain ⟨hk0, rfl⟩ := List.getElem?_eq_some_iff.1 hx
  obtain ⟨hk', rfl⟩ := List.getElem?_eq_some_iff.1 hy
  by_cases h0 : k = 0
  · subst h0
    unfold partialValue
    rw [good_bracket h hk (Or.inr ⟨rfl, rfl⟩)]
    simp only [Outcome.ok_bind]
    have hgap := good_lt h (by omega : 0 < E.length) hk (by omega)
    rw [if_neg (by
      rintro (hh | hh)
      · omega
      · linarith)]
    have e1 : (((0 : Nat) : Int) + 1) = ((1 : Nat) : Int) := rfl
    rw [vgetI_nat V 0 hk', e1, vgetI_nat V 1 (by omega)]
    simp only [Outcome.ok_bind, Bool.false_eq_true, if_false]
    rw [if_pos hpos, Outcome.pure_eq]
    congr 1
    apply logLog_left
    · exact h.2.1 _ (List.getElem_mem _)
    · have := good_lt h hk0 hk (by omega); linarith
    · exact hpos
  · obtain ⟨j, rfl⟩ : ∃ j, k = j + 1 := ⟨k - 1, by omega⟩
    have hlt := good_lt h (by omega : j < E.length) hk0 (by omega)
    have hlt2 := good_lt h hk0 hk (by omega)
    unfold partialValue
    rw [good_bracket h hk0 (Or.inl ⟨by linarith, le_refl _⟩)]
    simp only [Outcome.ok_bind]
    rw [if_neg (by
      rintro (hh | hh)
      · omega
      · linarith)]
    have e1 : ((j : Int) + 1) = ((j + 1 : Nat) : Int) := by push_cast; ring
    rw [vgetI_nat V j (by omega), e1, vgetI_nat V (j + 1) (by omega)]
    simp only [Outcome.ok_bind, Bool.false_eq_true, if_false]
    have hxp : 0 < E[j + 1] := h.2.1 _ (List.getElem_mem _)
    split_ifs with hy0
    · rw [Outcome.pure_eq]
      congr 1
      apply logLog_right
      · exact h.2.1 _ (List.getElem_mem _)
      · linarith
      · exact hpos
    · have hw : firstPositive V ((j : Int)).toNat = .ok (j + 1) := by
        unfold firstPositive
        rw [Int.toNat_natCast]
        have hd : V.drop j = V[j] :: V[j + 1] :: V.drop (j + 2) := by
          rw [List.drop_eq_getElem_cons (by omega), List.drop_eq_getElem_cons (i := j + 1) (by omega)]
        rw [hd]
        simp only [List.findIdx?_cons, hy0, hpos, decide_true, decide_false]
        simp
      rw [hw]
      simp only [Outcome.ok_bind]
      rw [vget_lt E (j + 1) hk0, vget_lt E (j + 1 + 1) hk]
      simp only [Outcome.ok_bind]
      rw [if_neg (by linarith), vget_lt E (j + 1) hk0, vget_lt E (j + 1 + 1) hk, vget_lt V (j + 1) hk',
        vget_lt V (j + 1 + 1) (by omega)]
      simp only [Outcome.ok_bind, Outcome.pure_eq]
      congr 1
      simp only [Trans.log, Trans.exp]
      rw [div_self (ne_of_gt hxp), Real.log_one, mul_zero, add_zero, Real.exp_log hpos]

/-- On increasing energies the adaptation to the binding energy only sets values to zero below it. -/
theorem shiftLoop_eq {b : ℝ} {E : List ℝ} (h : GoodTable E) : ∀ (fuel i : Nat) (V : List ℝ), 1 ≤ i → i + fuel ≤ E.length →
    (shiftLoop b E V i fuel).1 = E ∧ (shiftLoop b E V i fuel).2.length = V.length ∧
    ∀ (k : Nat) (x : ℝ), E[k]? = some x → b ≤ x → (shiftLoop b E V i fuel).2[k]? = V[k]? := by
  intro fuel
  induction fuel with
  | zero => intro i V _ _; exact ⟨rfl, rfl, fun _ _ _ _ => rfl⟩
  | succ fuel ih =>
    intro i V hi hl
    unfold shiftLoop
    have hget : E.getD i 0 = E[i] := by simp [List.getD, List.getElem?_eq_getElem (by omega : i < E.length)]
    have hget' : E.getD (i - 1) 0 = E[i - 1] := by simp [List.getD, List.getElem?_eq_getElem (by omega : i - 1 < E.length)]
    split_ifs with h1 h2
    · obtain ⟨a, c, d⟩ := ih (i + 1) (V.set i 0) (by omega) (by omega)
      refine ⟨a, by rw [c, List.length_set], ?_⟩
      intro k x hk hb
      rw [d k x hk hb, List.getElem?_set_ne]
      rintro rfl
      rw [List.getElem?_eq_getElem (by omega : i < E.length)] at hk
      rw [hget] at h1
      have : E[i] = x := by simpa using hk
      rw [this] at h1
      exact absurd h1 (not_lt.2 hb)
    · exfalso
      rw [hget, hget'] at h2
      have := good_lt h (by omega : i - 1 < E.length) (by omega : i < E.length) (by omega)
      linarith
    · exact ih (i + 1) V (by omega) (by omega)

/-- **C104** (queries) After a call that returns, the coherent, Compton and pair coefficients at the energy of the `n`-th
supplied point are the `n`-th supplied ones, when the energies of the table are positive and increase by at least
5e-10 keV, and each of the three tables is positive or has a zero at this point. -/
theorem C104_query (epdl : EPDL97 ℝ) (e : Element ℝ) (energy photo coherent compton pair : List ℝ)
    (h : (e.install epdl energy photo coherent compton pair).1 = .ok ()) (T : MuTable ℝ)
    (hT : (e.install epdl energy photo coherent compton pair).2.mu = some T)
    (hE : GoodTable (e.install epdl energy photo coherent compton pair).2.muEnergy)
    (n : Nat) (x : ℝ) (hn : n < energy.length)
    (hx : (e.install epdl energy photo coherent compton pair).2.muEnergy[
      (e.install epdl energy photo coherent compton pair).2.muEnergy.length - energy.length + n]? = some x)
    (h1 : (∀ z ∈ T.coherent, 0 < z) ∨ coherent[n]? = some 0) (h2 : (∀ z ∈ T.compton, 0 < z) ∨ compton[n]? = some 0)
    (h3 : (∀ z ∈ T.pair, 0 < z) ∨ pair[n]? = some 0)
    (m : Mu ℝ) (hm : (e.install epdl energy photo coherent compton pair).2.getMu x = .ok m) :
    coherent[n]? = some m.coherent ∧ compton[n]? = some m.compton ∧ pair[n]? = some m.pair := by
  obtain ⟨t, j, T', ms, _, hT', hl, _, hjt, _, hms, c1, c2, c3, _, hpl, l1, l2, l3⟩ := C104_table epdl e energy photo coherent
    compton pair h
  rw [hT] at hT'
  obtain rfl : T = T' := by simpa using hT'
  have hcache : (e.install epdl energy photo coherent compton pair).2.muCache = [] := by
    obtain ⟨t, ht, hr, ha, he⟩ := install_ok h
    obtain ⟨j, edges, ms, T, hj, hx, hms, hml, hne, hpl, hjt, l1, l2, l3, hset, hfin, _⟩ := adapt_ok ha
    rw [he, hfin]
    exact (setAll_ok hset).2.2.2.2.2.2.2.1
  set e' := (e.install epdl energy photo coherent compton pair).2 with he'
  have hml : ms.length = j := by rw [each_length hms, List.length_take]; omega
  rw [hl, Nat.add_sub_cancel] at hx
  have hcomp : computeMu e' x = .ok m := by
    unfold getMu at hm
    rw [hcache] at hm
    split_ifs at hm
    · exact hm
    · exact hm
  unfold computeMu at hcomp
  obtain ⟨parts, _, hcomp⟩ := Outcome.bind_eq_ok.1 hcomp
  obtain ⟨b, hb, hcomp⟩ := Outcome.bind_eq_ok.1 hcomp
  simp only [hT, Option.getD_some] at hcomp
  obtain ⟨coh, q1, hcomp⟩ := Outcome.bind_eq_ok.1 hcomp
  obtain ⟨com, q2, hcomp⟩ := Outcome.bind_eq_ok.1 hcomp
  obtain ⟨pai, q3, hcomp⟩ := Outcome.bind_eq_ok.1 hcomp
  simp only [Outcome.pure_eq, Outcome.ok.injEq] at hcomp
  have key : ∀ (ys src table : List ℝ) (v : ℝ), ys.length = j → energy.length ≤ src.length →
      table = ys ++ src.take energy.length → ((∀ z ∈ table, 0 < z) ∨ src[n]? = some 0) →
      processValue b x table = .ok v → src[n]? = some v := by
    intro ys src table v hys hs ht hc hv
    have hget : table[j + n]? = src[n]? := by
      rw [ht, List.getElem?_append_right (by omega), hys, Nat.add_sub_cancel_left, List.getElem?_take_of_lt hn]
    obtain ⟨y, hy⟩ : ∃ y, src[n]? = some y := ⟨src[n]'(by omega), List.getElem?_eq_getElem (by omega)⟩
    have := process_at (table := table) hE (by rw [ht, List.length_append, List.length_take, hl]; omega) hx (hget.trans hy)
      (by
        rcases hc with hc | hc
        · exact Or.inl hc
        · rw [hc] at hy; exact Or.inr (by simpa using hy.symm))
    rw [hb, Outcome.ok_bind, hv] at this
    rw [hy]
    simpa using this.symm
  refine ⟨?_, ?_, ?_⟩
  · rw [← hcomp]
    exact key _ _ _ _ (by rw [List.length_map, hml]) l1 c1 h1 q1
  · rw [← hcomp]
    exact key _ _ _ _ (by rw [List.length_map, hml]) l2 c2 h2 q2
  · rw [← hcomp]
    exact key _ _ _ _ (by rw [List.length_map, hml]) l3 c3 h3 q3

/-! ## The photoelectric coefficient -/

theorem rescale_get {K : Type} [Field K] [LinearOrder K] {old photo : List K} {j : Nat} : ∀ (cnt i : Nat) (dst r : List K),
    i + cnt ≤ dst.length → rescale old photo j cnt i dst = .ok r →
    r.length = dst.length ∧ (∀ k, k < i → r[k]? = dst[k]?) ∧
    ∀ k, i ≤ k → k < i + cnt → ∃ v, rescaled old photo dst j k = .ok v ∧ r[k]? = some v := by
  intro cnt
  induction cnt with
  | zero =>
    intro i dst r _ h
    cases h
    exact ⟨rfl, fun _ _ => rfl, fun k h1 h2 => by omega⟩
  | succ cnt ih =>
    intro i dst r hl h
    unfold rescale at h
    obtain ⟨y, hy, h⟩ := Outcome.bind_eq_ok.1 h
    obtain ⟨a, b, c⟩ := ih (i + 1) (dst.set i y) r (by rw [List.length_set]; omega) h
    refine ⟨by rw [a, List.length_set], ?_, ?_⟩
    · intro k hk
      rw [b k (by omega), List.getElem?_set_ne (by omega)]
    · intro k h1 h2
      rcases Nat.eq_or_lt_of_le h1 with rfl | h1
      · refine ⟨y, hy, ?_⟩
        rw [b _ (by omega), List.getElem?_set_self (by omega)]
      · obtain ⟨v, hv, hr⟩ := c k (by omega) (by omega)
        refine ⟨v, ?_, hr⟩
        unfold rescaled vget at hv ⊢
        rwa [List.getElem?_set_ne (by omega)] at hv

theorem partialsLoop_other {K : Type} [Field K] [LinearOrder K] [IsStrictOrderedRing K] [Trans K] {e : Element K} {x : K} :
    ∀ (shells : List Str), shells.Nodup → allOther ∈ shells → ∀ acc out, partialsLoop e x shells acc = .ok out →
      ∃ v, partialValue true ((e.partialE.find? allOther).getD []) ((e.partialV.find? allOther).getD []) x = .ok v ∧
        out.find? allOther = some v := by
  intro shells
  induction shells with
  | nil => intro _ h; simp at h
  | cons a r ih =>
    intro hnd hs acc out h
    obtain ⟨ha, hnd'⟩ := List.nodup_cons.1 hnd
    unfold partialsLoop at h
    by_cases hao : a = allOther
    · subst hao
      rw [if_neg (by simp)] at h
      obtain ⟨v, hv, h⟩ := Outcome.bind_eq_ok.1 h
      refine ⟨v, hv, ?_⟩
      rw [partialsLoop_keep r allOther ha _ _ h, SMap.find?_insert, if_pos rfl]
    · have hs' : allOther ∈ r := by
        rcases List.mem_cons.1 hs with h | h
        · exact absurd h.symm hao
        · exact h
      rw [if_pos hao] at h
      cases hf : e.binding.find? a with
      | none => rw [hf] at h; cases h
      | some b =>
        rw [hf] at h
        simp only at h
        split_ifs at h
        · exact ih hnd' hs' _ _ h
        · obtain ⟨v, _, h⟩ := Outcome.bind_eq_ok.1 h
          exact ih hnd' hs' _ _ h

/-- **C105** (part that holds) When no edge is found in the supplied table, the photoelectric coefficient at the energy of
the `n`-th supplied point, but the last one, is the `n`-th supplied one, when the energies of the new table are positive and
increase by at least 5e-10 keV, the supplied coefficients and those of EPDL97 (in total and for the shells other than K, L
and M) are positive, and those of EPDL97 at this energy are positive for all the shells that are excited. -/
theorem C105_partial (epdl : EPDL97 ℝ) (e : Element ℝ) (energy photo coherent compton pair : List ℝ)
    (h : (e.install epdl energy photo coherent compton pair).1 = .ok ())
    (t : SMap Str (List ℝ)) (ht : epdl.getTable e.atomicNumber = .ok t) (hl : 1 < (col t "energy").length)
    (hnone : ((e.setAll t).2.extractEdges energy photo).1 = .ok [])
    (hE : GoodTable (e.install epdl energy photo coherent compton pair).2.muEnergy)
    (ms : List (Mu ℝ))
    (hms : each (e.setAll t).2.getMu (e.install epdl energy photo coherent compton pair).2.muEnergy = .ok ms)
    (hpos : ∀ m ∈ ms, 0 < m.photoelectric ∧ 0 < at0 m.partials "all other".toList) (hphoto : ∀ y ∈ photo, 0 < y)
    (n : Nat) (hn : n + 1 < energy.length) (x : ℝ) (m0 : Mu ℝ)
    (hx : (e.install epdl energy photo coherent compton pair).2.muEnergy[
      (e.install epdl energy photo coherent compton pair).2.muEnergy.length - energy.length + n]? = some x)
    (hm0 : (e.setAll t).2.getMu x = .ok m0)
    (hshell : ∀ s ∈ keys, 0 < at0 e.binding s → at0 e.binding s ≤ x → 0 < at0 m0.partials s)
    (hbind : ∀ s ∈ keys, 0 ≤ at0 e.binding s)
    (m : Mu ℝ) (hm : (e.install epdl energy photo coherent compton pair).2.getMu x = .ok m) :
    photo[n]? = some m.photoelectric := by
  obtain ⟨t', ht', hr, ha, he⟩ := install_ok h
  rw [ht] at ht'
  obtain rfl : t = t' := by simpa using ht'
  obtain ⟨j, edges', ms', T, hj, hx', hms', hml, hne', hpl, hjt, l1, l2, l3, hset, hfin, c1, c2, c3, c4, c5, c6⟩ := adapt_ok ha
  rw [hnone] at hx'
  obtain rfl : [] = edges' := by simpa using hx'
  set e' := (e.install epdl energy photo coherent compton pair).2 with he'
  have hfin' : e' = (((e.setAll t).2.extractEdges energy photo).2.setAll T).2 := by rw [he, hfin]
  rw [reset_same hr hl] at hfin' hset hms'
  obtain ⟨r1, r2, r3, r4, r5, r6, r7, r8, r9, r10, r11, r12, r13, r14⟩ := setAll_ok hr
  obtain ⟨s1, s2, s3, s4, s5, s6, s7, s8, s9, s10, s11, s12, s13, s14⟩ := setAll_ok hset
  rw [← hfin'] at s5 s6 s7 s8 s9 s10 s11 s12 s13 s14
  have hen := each_energy r8 hms'
  have hgrid : e'.muEnergy = newGrid [] (e.setAll t).2.binding (col t "energy") energy j := by
    rw [s5, c1, hen]
  obtain rfl : ms' = ms := by
    rw [hgrid, hms'] at hms
    simpa using hms
  have hEl : e'.muEnergy.length = j + energy.length := by rw [s5, c1, List.length_map, hml]
  rw [hEl, Nat.add_sub_cancel] at hx
  -- the coefficients of EPDL97 at this energy
  have hk : (ms'[j + n]?) = some m0 := by
    have hlt : j + n < ms'.length := by omega
    have hsp : ∀ (xs : List ℝ) (l : List (Mu ℝ)), each (e.setAll t).2.getMu xs = .ok l → ∀ (k : Nat) (x' : ℝ), xs[k]? = some x' →
        ∃ mm : Mu ℝ, l[k]? = some mm ∧ (e.setAll t).2.getMu x' = .ok mm := by
      intro xs
      induction xs with
      | nil => intro l _ k x' hk; simp at hk
      | cons y ys ih =>
        intro l hl k x' hk
        unfold each at hl
        obtain ⟨a, ha, hl⟩ := Outcome.bind_eq_ok.1 hl
        obtain ⟨b, hb, hl⟩ := Outcome.bind_eq_ok.1 hl
        cases hl
        cases k with
        | zero =>
          simp only [List.getElem?_cons_zero, Option.some.injEq] at hk
          subst hk
          exact ⟨a, rfl, ha⟩
        | succ k => exact ih b hb k x' (by simpa using hk)
    obtain ⟨mm, h1, h2⟩ := hsp _ _ hms _ _ hx
    rw [hm0] at h2
    rw [h1]
    simpa using h2.symm
  have hm0pos := hpos m0 (List.mem_of_getElem? hk)
  obtain ⟨p, hp⟩ : ∃ p, photo[n]? = some p := ⟨photo[n]'(by omega), List.getElem?_eq_getElem (by omega)⟩
  have hppos := hphoto p (List.mem_of_getElem? hp)
  have hcols : ∀ s ∈ photoShells, ∃ c, T.find? s = some c ∧ c.length = j + energy.length ∧
      c[j + n]? = some (p * (at0 m0.partials s / m0.photoelectric)) ∧
      (s = allOther → ∀ y ∈ c, 0 < y) := by
    intro s hs
    obtain ⟨c, hc, hTc⟩ := c6 s hs
    refine ⟨c, hTc, ?_⟩
    unfold shellColumn at hc
    rw [if_neg (by simp)] at hc
    have hdl : (ms'.map (fun m => at0 m.partials s)).length = j + energy.length := by rw [List.length_map, hml]
    obtain ⟨a, b, d⟩ := rescale_get _ _ _ _ (by rw [hdl]; omega) hc
    have hval : ∀ k : Nat, j ≤ k → k < j + energy.length → ∃ (mk : Mu ℝ) (pk : ℝ), ms'[k]? = some mk ∧ photo[k - j]? = some pk ∧
        c[k]? = some (pk * (at0 mk.partials s / mk.photoelectric)) := by
      intro k h1 h2
      obtain ⟨v, hv, hcv⟩ := d k h1 (by omega)
      have hklt : k < ms'.length := by omega
      have hplt : k - j < photo.length := by omega
      refine ⟨ms'[k], photo[k - j], List.getElem?_eq_getElem hklt, List.getElem?_eq_getElem hplt, ?_⟩
      have hmk := (hpos ms'[k] (List.getElem_mem _)).1
      unfold rescaled at hv
      rw [vget_lt _ k (by rw [List.length_map]; exact hklt)] at hv
      simp only [Outcome.ok_bind, List.getElem_map] at hv
      rw [if_pos hmk, vget_lt _ k (by rw [List.length_map]; exact hklt), vget_lt photo (k - j) hplt] at hv
      simp only [Outcome.ok_bind, List.getElem_map, Outcome.pure_eq, Outcome.ok.injEq] at hv
      rw [hcv, ← hv]
    refine ⟨by rw [a, hdl], ?_, ?_⟩
    · obtain ⟨mk, pk, q1, q2, q3⟩ := hval (j + n) (by omega) (by omega)
      rw [hk] at q1
      rw [Nat.add_sub_cancel_left, hp] at q2
      obtain rfl : m0 = mk := by simpa using q1
      obtain rfl : p = pk := by simpa using q2
      exact q3
    · rintro rfl y hy
      obtain ⟨k, hyk⟩ := List.mem_iff_getElem?.1 hy
      have hkl : k < j + energy.length := by
        have := (List.getElem?_eq_some_iff.1 hyk).1
        omega
      by_cases hkj : k < j
      · rw [b k hkj] at hyk
        rw [List.getElem?_map, List.getElem?_eq_getElem (by omega : k < ms'.length)] at hyk
        have : at0 ms'[k].partials allOther = y := by simpa using hyk
        rw [← this]
        exact (hpos _ (List.getElem_mem _)).2
      · obtain ⟨mk, pk, q1, q2, q3⟩ := hval k (by omega) hkl
        rw [q3] at hyk
        have hyk : pk * (at0 mk.partials allOther / mk.photoelectric) = y := by simpa using hyk
        rw [← hyk]
        have hmk := hpos mk (List.mem_of_getElem? q1)
        exact mul_pos (hphoto pk (List.mem_of_getElem? q2)) (div_pos hmk.2 hmk.1)
  -- the partial coefficients the queries compute
  have hpartials : ∀ (ee : Element ℝ) (mm : Mu ℝ), ee.muCache = [] → (∃ E, ee.partialE.find? allOther = some E ∧ E ≠ []) →
      ee.getMu x = .ok mm → partialsLoop ee x photoShells [] = .ok mm.partials := by
    intro ee mm hc hpE hg
    have hcomp : computeMu ee x = .ok mm := by
      unfold getMu at hg
      rw [hc] at hg
      split_ifs at hg
      · exact hg
      · exact hg
    unfold computeMu at hcomp
    obtain ⟨parts, hparts, hcomp⟩ := Outcome.bind_eq_ok.1 hcomp
    obtain ⟨b, _, hcomp⟩ := Outcome.bind_eq_ok.1 hcomp
    obtain ⟨coh, _, hcomp⟩ := Outcome.bind_eq_ok.1 hcomp
    obtain ⟨com, _, hcomp⟩ := Outcome.bind_eq_ok.1 hcomp
    obtain ⟨pai, _, hcomp⟩ := Outcome.bind_eq_ok.1 hcomp
    simp only [Outcome.pure_eq, Outcome.ok.injEq] at hcomp
    rw [← hcomp]
    obtain ⟨E, hE, hEne⟩ := hpE
    unfold partialsOrZero at hparts
    rw [if_pos (by
      rw [List.any_eq_true]
      exact ⟨(allOther, E), SMap.mem_of_find? hE, by simpa using List.length_pos_of_ne_nil hEne⟩)] at hparts
    exact hparts
  have hl0 : partialsLoop (e.setAll t).2 x photoShells [] = .ok m0.partials :=
    hpartials _ _ r8 ⟨_, r12, by intro hc; rw [hc] at hl; simp at hl⟩ hm0
  have hl1 : partialsLoop e' x photoShells [] = .ok m.partials :=
    hpartials _ _ s8 ⟨_, s12, by
      intro hc
      rw [s5, hc] at hEl
      simp only [List.length_nil] at hEl
      omega⟩ hm
  have hshells : ∀ s ∈ photoShells, at0 m.partials s = p * (at0 m0.partials s / m0.photoelectric) := by
    intro s hs
    obtain ⟨c, hTc, hcl, hcv, hco⟩ := hcols s hs
    by_cases hso : s = allOther
    · subst hso
      obtain ⟨v, hv, hf⟩ := partialsLoop_other photoShells photoShells_nodup hs _ _ hl1
      rw [s12, s13, hTc, Option.getD_some, Option.getD_some, Option.getD_some, ← s5] at hv
      have hint := (C22_partial_coefficients_interpolate true hE (by rw [hcl, hEl]) (hco rfl)).1 (j + n) (by omega) (by omega)
      have hxx : e'.muEnergy[j + n]'(by omega) = x := by
        have := (List.getElem?_eq_some_iff.1 hx).2
        exact this
      have hcc : c[j + n]'(by omega) = p * (at0 m0.partials allOther / m0.photoelectric) :=
        (List.getElem?_eq_some_iff.1 hcv).2
      rw [hxx, hcc] at hint
      rw [hint] at hv
      unfold at0 at hv ⊢
      rw [hf]
      simpa using hv.symm
    · have hsk : s ∈ keys := by
        rcases List.mem_append.1 hs with h | h
        · exact h
        · exact absurd (by simpa using h) hso
      obtain ⟨b1, hb1, hcase1⟩ := partialsLoop_find photoShells photoShells_nodup s hs hso _ _ hl1
      obtain ⟨b0, hb0, hcase0⟩ := partialsLoop_find photoShells photoShells_nodup s hs hso _ _ hl0
      have hbe0 : b0 = at0 e.binding s := by rw [← r10 s]; unfold at0; rw [hb0]; rfl
      have hbe1 : b1 = at0 e.binding s := by rw [← r10 s, ← s10 s]; unfold at0; rw [hb1]; rfl
      obtain rfl : b0 = b1 := hbe0.trans hbe1.symm
      rcases hcase1 with ⟨hc, hf⟩ | ⟨hc, v, hv, hf⟩
      · rcases hcase0 with ⟨_, hf0⟩ | ⟨hc0, _⟩
        · unfold at0
          rw [hf, hf0]
          simp
        · rcases hc with hc | hc
          · exact absurd hc hc0.1
          · exact absurd hc (not_lt.2 hc0.2)
      · have hbpos : 0 < at0 e.binding s :=
          lt_of_le_of_ne (hbind s hsk) (fun h => hc.1 (by rw [hbe0, ← h]))
        have hmpos := hshell s hsk hbpos (by rw [← hbe0]; exact hc.2)
        have hs14 := s14 s hsk
        rw [← s5] at hs14
        rw [hs14.1, hs14.2, hTc] at hv
        simp only [Option.getD_some] at hv
        obtain ⟨z1, z2, z3⟩ := shiftLoop_eq (b := at0 (e.setAll t).2.binding s) hE (e'.muEnergy.length - 1) 1 c (by omega)
          (by have := hE.1; omega)
        rw [z1] at hv
        have hvv := partial_at (V := (shiftLoop (at0 (e.setAll t).2.binding s) e'.muEnergy c 1 (e'.muEnergy.length - 1)).2)
          hE (by rw [z2, hcl, hEl]) (k := j + n) (by omega) hx
          ((z3 (j + n) x hx (by rw [r10 s, ← hbe0]; exact hc.2)).trans hcv)
          (mul_pos hppos (div_pos hmpos hm0pos.1))
        rw [hvv] at hv
        have hv : p * (at0 m0.partials s / m0.photoelectric) = v := by simpa using hv
        unfold at0 at hv ⊢
        rw [hf]
        simpa using hv.symm
  have hsum : ∀ (ee : Element ℝ) (mm : Mu ℝ), ee.muCache = [] → ee.getMu x = .ok mm → SumRules x mm := by
    intro ee mm hc hg
    refine getMu_sums ?_ hg
    intro y m' hf
    rw [hc] at hf
    cases hf
  have hsm := (hsum _ _ s8 hm).2.1
  have hs0 := (hsum _ _ r8 hm0).2.1
  rw [hp]
  congr 1
  rw [hsm]
  have : (["K", "L1", "L2", "L3", "M1", "M2", "M3", "M4", "M5", "all other"].map
      (fun s : String => at0 m.partials s.toList)) = (["K", "L1", "L2", "L3", "M1", "M2", "M3", "M4", "M5", "all other"].map
      (fun s : String => (p / m0.photoelectric) * at0 m0.partials s.toList)) := by
    apply List.map_congr_left
    intro s hs
    have hs' : s.toList ∈ photoShells := by
      have : photoShells = (["K", "L1", "L2", "L3", "M1", "M2", "M3", "M4", "M5", "all other"] : List String).map String.toList := rfl
      rw [this]
      exact List.mem_map_of_mem hs
    rw [hshells _ hs']
    ring
  rw [this, List.sum_map_mul_left, ← hs0, div_mul_cancel₀ _ (ne_of_gt hm0pos.1)]

end Element
end Fisx
