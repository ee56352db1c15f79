import Verif.Edges
import Verif.ElementSums

/-!
# Setting the mass attenuation coefficients of an element of the library (properties C104 to C107)
-/

set_option linter.unusedSectionVars false

namespace Fisx

theorem thenDo_ok {α σ : Type} {o : Outcome α} {s : σ} {f : α → Outcome Unit × σ} (h : (thenDo o s f).1 = .ok ()) :
    ∃ a, o = .ok a ∧ (f a).1 = .ok () ∧ (thenDo o s f).2 = (f a).2 := by
  cases o with
  | ok a => exact ⟨a, rfl, h, rfl⟩
  | throw x => exact absurd h (by simp [thenDo])
  | ub u => exact absurd h (by simp [thenDo])
  | diverge => exact absurd h (by simp [thenDo])

theorem each_append {α β : Type} (f : α → Outcome β) : ∀ (xs ys : List α),
    each f (xs ++ ys) = (do let a ← each f xs; let b ← each f ys; return a ++ b) := by
  intro xs
  induction xs with
  | nil =>
    intro ys
    simp only [List.nil_append, each, Outcome.ok_bind]
    cases each f ys <;> rfl
  | cons x xs ih =>
    intro ys
    simp only [List.cons_append, each]
    rw [ih]
    cases f x with
    | ok a =>
      simp only [Outcome.ok_bind]
      cases each f xs with
      | ok b =>
        simp only [Outcome.ok_bind, Outcome.pure_eq]
        cases each f ys <;> rfl
      | throw _ => rfl
      | ub _ => rfl
      | diverge => rfl
    | throw _ => rfl
    | ub _ => rfl
    | diverge => rfl

namespace Element

variable {K : Type} [Field K] [LinearOrder K] [IsStrictOrderedRing K]

/-! ## Lemmas -/

theorem setMass_ok {e : Element K} {E ph coh com pai : List K}
    (h : (e.setMassAttenuationCoefficients E ph coh com pai).1 = .ok ()) :
    ph.length = E.length ∧ com.length = E.length ∧ coh.length = E.length ∧ (pai.length > 0 → pai.length = E.length) ∧
    ascending E = true ∧
    (e.setMassAttenuationCoefficients E ph coh com pai).2 = { e.clearCache with
      muEnergy := E,
      mu := some { coherent := coh, compton := com, pair := if pai.length > 0 then pai else List.replicate E.length 0,
                   photoelectric := ph,
                   total := List.zipWith (· + ·) coh (List.zipWith (· + ·) (List.zipWith (· + ·) com
                     (if pai.length > 0 then pai else List.replicate E.length 0)) ph) } } := by
  unfold setMassAttenuationCoefficients at h ⊢
  split_ifs at h ⊢ with h1 h2 h3 h4 h5 h6
  · exact ⟨not_not.1 h1, not_not.1 h2, not_not.1 h3, fun hp => by
      by_contra hc; exact h4 ⟨hp, hc⟩, by simpa using h5, rfl⟩
  · exact ⟨not_not.1 h1, not_not.1 h2, not_not.1 h3, fun hp => by
      by_contra hc; exact h4 ⟨hp, hc⟩, by simpa using h5, rfl⟩

/-- What a successful `setPartial` does. -/
theorem setPartial_ok {e : Element K} {s : Str} {E V : List K} (h : (e.setPartial s E V).1 = .ok ()) :
    let e' := (e.setPartial s E V).2
    E.length = V.length ∧ e'.muEnergy = e.muEnergy ∧ e'.mu = e.mu ∧ e'.atomicNumber = e.atomicNumber ∧
    e'.muCache = [] ∧ e'.excCache = [] ∧ e'.cacheOn = e.cacheOn ∧ e'.shells = e.shells ∧
    (∀ k, at0 e'.binding k = at0 e.binding k) ∧ (∀ k, e.binding.mem k = true → e'.binding.mem k = true) ∧
    (s ≠ allOther → E.length > 1 → e'.binding.mem s = true) ∧
    (∀ k, k ≠ s → e'.partialE.find? k = e.partialE.find? k ∧ e'.partialV.find? k = e.partialV.find? k) ∧
    (∀ k, e.partialE.mem k = true → e'.partialE.mem k = true) ∧
    (s = allOther → e'.partialE.find? s = some E ∧ e'.partialV.find? s = some V) ∧
    (s ≠ allOther → e'.partialE.find? s = some (shiftLoop (at0 e.binding s) E V 1 (E.length - 1)).1 ∧
      e'.partialV.find? s = some (shiftLoop (at0 e.binding s) E V 1 (E.length - 1)).2) := by
  have hmemI : ∀ {ν : Type} (m : SMap Str ν) (a : Str) (v : ν) (k : Str), m.mem k = true → (m.insert a v).mem k = true := by
    intro ν m a v k hk
    unfold SMap.mem at hk ⊢
    rw [SMap.find?_insert]
    split_ifs <;> simp_all
  have hset : ∀ {ν : Type} (m : SMap Str ν) (v : ν) (k : Str), k ≠ s → (m.insert s v).find? k = m.find? k := by
    intro ν m v k hk
    rw [SMap.find?_insert, if_neg (fun h => hk h.symm)]
  have hself : ∀ {ν : Type} (m : SMap Str ν) (v : ν), (m.insert s v).find? s = some v := by
    intro ν m v
    rw [SMap.find?_insert, if_pos rfl]
  unfold setPartial at h ⊢
  split_ifs at h ⊢ with h1 h2 h3 h4
  · simp only
    generalize hbd : (if E.length > 1 ∧ e.clearCache.binding.mem s = false then e.clearCache.binding.insert s 0
      else e.clearCache.binding) = bind
    have hb0 : e.clearCache.binding = e.binding := rfl
    rw [hb0] at hbd
    have hat : ∀ k, at0 bind k = at0 e.binding k := by
      intro k
      rw [← hbd]
      split_ifs with h5
      · have := at0_touch e.binding s k
        rwa [if_neg (by rw [h5.2]; simp)] at this
      · rfl
    have hmb : ∀ k, e.binding.mem k = true → bind.mem k = true := by
      intro k hk
      rw [← hbd]
      split_ifs
      · exact hmemI _ _ _ _ hk
      · exact hk
    refine ⟨not_not.1 h2, rfl, rfl, rfl, rfl, rfl, rfl, rfl, hat, hmb, fun _ hl => ?_, ?_, ?_,
      fun h => absurd h h4, fun _ => ?_⟩
    · cases hm : e.binding.mem s with
      | true => exact hmb s hm
      | false =>
        rw [← hbd, if_pos ⟨hl, hm⟩]
        unfold SMap.mem
        rw [hself]
        rfl
    · intro k hk
      exact ⟨hset _ _ k hk, hset _ _ k hk⟩
    · exact fun k hk => hmemI _ _ _ _ hk
    · rw [hat s]
      exact ⟨hself _ _, hself _ _⟩
  · refine ⟨not_not.1 h2, rfl, rfl, rfl, rfl, rfl, rfl, rfl, fun _ => rfl, fun _ hk => hk, fun h => absurd h h4, ?_, ?_,
      fun _ => ?_, fun h => absurd h h4⟩
    · intro k hk
      exact ⟨hset _ _ k hk, hset _ _ k hk⟩
    · exact fun k hk => hmemI _ _ _ _ hk
    · exact ⟨hself _ _, hself _ _⟩

/-- What the calls for several shells do. -/
theorem setPartials_ok {t : SMap Str (List K)} : ∀ (ss : List Str) (e : Element K), ss.Nodup →
    (setPartials t ss e).1 = .ok () →
    let e' := (setPartials t ss e).2
    e'.muEnergy = e.muEnergy ∧ e'.mu = e.mu ∧ e'.atomicNumber = e.atomicNumber ∧ e'.cacheOn = e.cacheOn ∧
    (e.muCache = [] → e'.muCache = []) ∧
    (∀ k, at0 e'.binding k = at0 e.binding k) ∧ (∀ k, e.binding.mem k = true → e'.binding.mem k = true) ∧
    (∀ s ∈ ss, s ≠ allOther → (col t "energy").length > 1 → e'.binding.mem s = true) ∧
    (∀ k, k ∉ ss → e'.partialE.find? k = e.partialE.find? k ∧ e'.partialV.find? k = e.partialV.find? k) ∧
    (allOther ∈ ss → e'.partialE.find? allOther = some (col t "energy") ∧
      e'.partialV.find? allOther = some ((t.find? allOther).getD [])) ∧
    (∀ s ∈ ss, s ≠ allOther →
      e'.partialE.find? s = some (shiftLoop (at0 e.binding s) (col t "energy") ((t.find? s).getD []) 1
        ((col t "energy").length - 1)).1 ∧
      e'.partialV.find? s = some (shiftLoop (at0 e.binding s) (col t "energy") ((t.find? s).getD []) 1
        ((col t "energy").length - 1)).2) := by
  intro ss
  induction ss with
  | nil =>
    intro e _ _
    unfold setPartials
    exact ⟨rfl, rfl, rfl, rfl, fun h => h, fun _ => rfl, fun _ h => h, by simp, by simp, by simp, by simp⟩
  | cons a ss ih =>
    intro e hnd h
    obtain ⟨ha, hnd'⟩ := List.nodup_cons.1 hnd
    unfold setPartials at h ⊢
    obtain ⟨u, h1, h2, h3⟩ := thenDo_ok h
    have hp := setPartial_ok h1
    simp only at hp h3 ⊢
    rw [h3]
    obtain ⟨p0, p1, p2, p3, p4, p5, p6, p7, p8, p9, p10, p11, p12, p13, p14⟩ := hp
    obtain ⟨i1, i2, i3, i4, i5, i6, i7, i8, i9, i10, i11⟩ := ih _ hnd' h2
    refine ⟨i1.trans p1, i2.trans p2, i3.trans p3, i4.trans p6, fun _ => i5 p4, fun k => (i6 k).trans (p8 k),
      fun k hk => i7 k (p9 k hk), ?_, ?_, ?_, ?_⟩
    · intro s hs hso hl
      rcases List.mem_cons.1 hs with rfl | hs
      · exact i7 _ (p10 hso hl)
      · exact i8 s hs hso hl
    · intro k hk
      simp only [List.mem_cons, not_or] at hk
      obtain ⟨a1, a2⟩ := i9 k hk.2
      obtain ⟨b1, b2⟩ := p11 k hk.1
      exact ⟨a1.trans b1, a2.trans b2⟩
    · intro hm
      by_cases hao : a = allOther
      · subst hao
        obtain ⟨a1, a2⟩ := i9 _ ha
        obtain ⟨b1, b2⟩ := p13 rfl
        exact ⟨a1.trans b1, a2.trans b2⟩
      · exact i10 (by
          rcases List.mem_cons.1 hm with h | h
          · exact absurd h.symm hao
          · exact h)
    · intro s hs hso
      rcases List.mem_cons.1 hs with rfl | hs
      · obtain ⟨a1, a2⟩ := i9 _ ha
        obtain ⟨b1, b2⟩ := p14 hso
        exact ⟨a1.trans b1, a2.trans b2⟩
      · have := i11 s hs hso
        rwa [p8 s] at this

theorem photoShells_nodup : photoShells.Nodup := by decide +kernel

/-- What a successful `setAll` does. -/
theorem setAll_ok {e : Element K} {t : SMap Str (List K)} (h : (e.setAll t).1 = .ok ()) :
    let e' := (e.setAll t).2
    let E := col t "energy"
    (col t "photoelectric").length = E.length ∧ (col t "compton").length = E.length ∧
    (col t "coherent").length = E.length ∧ ascending E = true ∧
    e'.muEnergy = E ∧ e'.atomicNumber = e.atomicNumber ∧ e'.cacheOn = e.cacheOn ∧ e'.muCache = [] ∧
    (∃ T, e'.mu = some T ∧ T.coherent = col t "coherent" ∧ T.compton = col t "compton" ∧
      T.pair = (if (col t "pair").length > 0 then col t "pair" else List.replicate E.length 0) ∧
      T.photoelectric = col t "photoelectric" ∧
      T.total = List.zipWith (· + ·) T.coherent (List.zipWith (· + ·) (List.zipWith (· + ·) T.compton T.pair)
        T.photoelectric)) ∧
    (∀ k, at0 e'.binding k = at0 e.binding k) ∧ (∀ s ∈ keys, E.length > 1 → e'.binding.mem s = true) ∧
    e'.partialE.find? allOther = some E ∧ e'.partialV.find? allOther = some ((t.find? allOther).getD []) ∧
    (∀ s ∈ keys, e'.partialE.find? s = some (shiftLoop (at0 e.binding s) E ((t.find? s).getD []) 1 (E.length - 1)).1 ∧
      e'.partialV.find? s = some (shiftLoop (at0 e.binding s) E ((t.find? s).getD []) 1 (E.length - 1)).2) := by
  unfold setAll at h ⊢
  simp only at h ⊢
  obtain ⟨u, h1, h2, h3⟩ := thenDo_ok h
  rw [h3]
  obtain ⟨m1, m2, m3, m4, m5, m6⟩ := setMass_ok h1
  obtain ⟨i1, i2, i3, i4, i5, i6, i7, i8, i9, i10, i11⟩ := setPartials_ok photoShells _ photoShells_nodup h2
  have hne : ∀ s ∈ keys, s ≠ allOther := by decide +kernel
  have hmem : ∀ s ∈ keys, s ∈ photoShells := fun s hs => List.mem_append_left _ hs
  have hao : allOther ∈ photoShells := by decide +kernel
  rw [m6] at i1 i2 i3 i4 i5 i6 i7 i11
  refine ⟨m1, m2, m3, m5, by rw [m6]; exact i1, by rw [m6]; exact i3, by rw [m6]; exact i4,
    by rw [m6]; exact i5 rfl, ⟨_, by rw [m6]; exact i2, rfl, rfl, rfl, rfl, rfl⟩, by rw [m6]; exact i6, ?_, ?_, ?_, ?_⟩
  · intro s hs hl
    exact i8 s (hmem s hs) (hne s hs) hl
  · exact (i10 hao).1
  · exact (i10 hao).2
  · intro s hs
    rw [m6]
    exact i11 s (hmem s hs) (hne s hs)

theorem countBelow_ok (x : K) : ∀ (l : List K) (n : Nat), countBelow x l = .ok n →
    n < l.length ∧ (∀ y ∈ l.take n, y < x) ∧ ∀ y, l[n]? = some y → ¬ y < x := by
  intro l
  induction l with
  | nil => intro n h; cases h
  | cons a r ih =>
    intro n h
    unfold countBelow at h
    split_ifs at h with ha
    · obtain ⟨m, hm, h⟩ := Outcome.bind_eq_ok.1 h
      cases h
      obtain ⟨h1, h2, h3⟩ := ih m hm
      refine ⟨by simpa using h1, ?_, by simpa using h3⟩
      intro y hy
      simp only [List.take_succ_cons, List.mem_cons] at hy
      rcases hy with rfl | hy
      · exact ha
      · exact h2 y hy
    · cases h
      exact ⟨by simp, by simp, fun y hy => by simp at hy; subst hy; exact ha⟩

theorem gridLoop_length (edges : SMap Str (K × Nat)) (b : SMap Str K) (ext : Bool) : ∀ (xs : List K) (t : Nat) (p : K),
    (gridLoop edges b ext xs t p).length = xs.length := by
  intro xs
  induction xs with
  | nil => intro t p; rfl
  | cons x xs ih => intro t p; unfold gridLoop; simp only [List.length_cons]; rw [ih]

theorem paste_eq (src : List K) (j : Nat) : ∀ (n k : Nat) (dst : List K), j + k + n = dst.length →
    paste src j n (j + k) dst = if n = 0 ∨ k + n ≤ src.length
      then .ok (dst.take (j + k) ++ (src.drop k).take n) else .ub .outOfBounds := by
  intro n
  induction n with
  | zero =>
    intro k dst h
    simp only [paste, true_or, if_true, List.take_zero, List.append_nil]
    rw [List.take_of_length_le (by omega)]
  | succ n ih =>
    intro k dst h
    unfold paste
    rw [show j + k - j = k by omega]
    by_cases hk : k < src.length
    · rw [vget_lt src k hk]
      simp only [Outcome.ok_bind]
      rw [show j + k + 1 = j + (k + 1) by omega, ih (k + 1) _ (by rw [List.length_set]; omega)]
      by_cases hn : k + (n + 1) ≤ src.length
      · rw [if_pos (Or.inr (by omega)), if_pos (Or.inr hn)]
        congr 1
        rw [List.drop_eq_getElem_cons hk, List.take_succ_cons, show j + (k + 1) = (j + k) + 1 by omega,
          List.take_add_one, List.getElem?_set_self (by omega), List.take_set_of_le (by omega)]
        simp
      · by_cases hn0 : n = 0
        · omega
        · rw [if_neg (by omega), if_neg (by omega)]
    · rw [vget_ge src k (by omega), if_neg (by omega)]
      rfl

theorem paste_ok {src dst r : List K} {j n : Nat} (hl : j + n = dst.length) (hn : 0 < n)
    (h : paste src j n j dst = .ok r) : n ≤ src.length ∧ r = dst.take j ++ src.take n := by
  have := paste_eq src j n 0 dst (by omega)
  rw [Nat.add_zero] at this
  rw [this] at h
  split_ifs at h with hc
  · refine ⟨by omega, ?_⟩
    simpa using h.symm

theorem shellColumns_ok {edges : SMap Str (K × Nat)} {old photo : List K} {j len : Nat} : ∀ (ss : List Str)
    (m T : SMap Str (List K)), ss.Nodup → shellColumns edges old photo j len ss m = .ok T →
    (∀ k, k ∉ ss → T.find? k = m.find? k) ∧
    ∀ s ∈ ss, ∃ c, shellColumn edges old photo j len s ((m.find? s).getD []) = .ok c ∧ T.find? s = some c := by
  intro ss
  induction ss with
  | nil =>
    intro m T _ h
    cases h
    exact ⟨fun _ _ => rfl, by simp⟩
  | cons a ss ih =>
    intro m T hnd h
    obtain ⟨ha, hnd'⟩ := List.nodup_cons.1 hnd
    unfold shellColumns at h
    obtain ⟨c, hc, h⟩ := Outcome.bind_eq_ok.1 h
    obtain ⟨h1, h2⟩ := ih _ _ hnd' h
    constructor
    · intro k hk
      simp only [List.mem_cons, not_or] at hk
      rw [h1 k hk.2, SMap.find?_insert, if_neg (fun h => hk.1 h.symm)]
    · intro s hs
      rcases List.mem_cons.1 hs with rfl | hs
      · refine ⟨c, hc, ?_⟩
        rw [h1 _ ha, SMap.find?_insert, if_pos rfl]
      · obtain ⟨c', hc', h'⟩ := h2 s hs
        rw [SMap.find?_insert, if_neg (by rintro rfl; exact ha hs)] at hc'
        exact ⟨c', hc', h'⟩

theorem pairShells_mem : ∀ (cs : List (K × Nat)) (ks : List Str) (b : SMap Str K) (r : SMap Str (K × Nat)),
    (∀ k ∈ ks, b.mem k = true) → (pairShells cs ks b r).1 = b := by
  intro cs
  induction cs with
  | nil => intro ks b r _; simp [pairShells]
  | cons c cs ih =>
    intro ks b r h
    cases ks with
    | nil => simp [pairShells]
    | cons k ks =>
      obtain ⟨x, i⟩ := c
      unfold pairShells
      simp only
      have hk := h k List.mem_cons_self
      rw [if_pos hk]
      exact ih ks b _ (fun k' hk' => h k' (List.mem_cons_of_mem _ hk'))

/-- The element is not changed when the nine shells have an entry in the binding energies. -/
theorem extractEdges_same {e : Element K} (hb : ∀ k ∈ keys, e.binding.mem k = true) (E V : List K) :
    (e.extractEdges E V).2 = e := by
  unfold extractEdges
  split_ifs
  · rfl
  · rfl
  · rfl
  · rfl
  · simp only
    rw [pairShells_mem _ _ _ _ hb]

variable [Trans K]

theorem columnsOf_find {k : Str} (hk : k ∈ muKeys) (ms : List (SMap Str K)) :
    (columnsOf muKeys ms).find? k = some (ms.map (fun m => at0 m k)) := by
  unfold columnsOf
  exact find?_map_keys (fun k => ms.map (fun m => at0 m k)) muKeys k hk

/-- The decomposition of a successful adaptation. -/
theorem adapt_ok {e : Element K} {table energy photo coherent compton pair : List K}
    (h : (e.adapt table energy photo coherent compton pair).1 = .ok ()) :
    ∃ (j : Nat) (edges : SMap Str (K × Nat)) (ms : List (Mu K)) (T : SMap Str (List K)),
      keptEnergies table energy = .ok j ∧ (e.extractEdges energy photo).1 = .ok edges ∧
      each (e.extractEdges energy photo).2.getMu
        (newGrid edges (e.extractEdges energy photo).2.binding table energy j) = .ok ms ∧
      ms.length = j + energy.length ∧ energy ≠ [] ∧ photo.length = energy.length ∧ j ≤ table.length ∧
      energy.length ≤ coherent.length ∧ energy.length ≤ compton.length ∧ energy.length ≤ pair.length ∧
      ((e.extractEdges energy photo).2.setAll T).1 = .ok () ∧
      (e.adapt table energy photo coherent compton pair).2 = ((e.extractEdges energy photo).2.setAll T).2 ∧
      col T "energy" = ms.map Mu.energy ∧
      col T "coherent" = (ms.take j).map Mu.coherent ++ coherent.take energy.length ∧
      col T "compton" = (ms.take j).map Mu.compton ++ compton.take energy.length ∧
      col T "pair" = (ms.take j).map Mu.pair ++ pair.take energy.length ∧
      col T "photoelectric" = (ms.take j).map Mu.photoelectric ++ photo ∧
      ∀ s ∈ photoShells, ∃ c, shellColumn edges (ms.map Mu.photoelectric) photo j (j + energy.length) s
        (ms.map (fun m => at0 m.partials s)) = .ok c ∧ T.find? s = some c := by
  unfold adapt at h ⊢
  obtain ⟨j, hj, h, e1⟩ := thenDo_ok h
  rw [e1]
  simp only at h ⊢
  obtain ⟨edges, hx, h, e2⟩ := thenDo_ok h
  rw [e2]
  obtain ⟨T, hT, h, e3⟩ := thenDo_ok h
  rw [e3]
  set b := (e.extractEdges energy photo).2 with hb
  have hlen : photo.length = energy.length ∧ energy ≠ [] := by
    have hc := C102_errors e energy photo
    have : ¬ (e.extractEdges energy photo).1 = .throw .runtimeError := by rw [hx]; simp
    rw [hc.1] at this
    simp only [not_or, not_not] at this
    exact ⟨this.2.2.1.symm, this.1⟩
  have hpos : 0 < energy.length := List.length_pos_of_ne_nil hlen.2
  have hjt : j ≤ table.length := by
    unfold keptEnergies at hj
    obtain ⟨x, _, hj⟩ := Outcome.bind_eq_ok.1 hj
    obtain ⟨n, hn, hj⟩ := Outcome.bind_eq_ok.1 hj
    have := (countBelow_ok x table n hn).1
    cases hj
    omega
  unfold newTable at hT
  simp only at hT
  obtain ⟨m, hm, hT⟩ := Outcome.bind_eq_ok.1 hT
  have hgl : (newGrid edges b.binding table energy j).length = j + energy.length := by
    unfold newGrid
    rw [List.length_append, gridLoop_length, List.length_take]
    omega
  rw [C75_element_coefficients] at hm
  obtain ⟨ms, hms, hm⟩ := Outcome.bind_eq_ok.1 hm
  have hml : ms.length = j + energy.length := by rw [each_length hms, hgl]
  rw [if_neg (by intro hc; rw [hc] at hgl; simp at hgl; omega)] at hm
  have hm : columnsOf muKeys (ms.map muMap) = m := by simpa using hm
  have hcol : ∀ k ∈ muKeys, m.find? k = some (ms.map (fun x => at0 (muMap x) k)) := by
    intro k hk
    rw [← hm, columnsOf_find hk, List.map_map]
    rfl
  have c1 : col m "coherent" = ms.map Mu.coherent := by
    unfold col
    rw [hcol _ (by decide +kernel)]
    exact List.map_congr_left (fun x _ => (muMap_entries x).2.1)
  have c2 : col m "compton" = ms.map Mu.compton := by
    unfold col
    rw [hcol _ (by decide +kernel)]
    exact List.map_congr_left (fun x _ => (muMap_entries x).2.2.1)
  have c3 : col m "energy" = ms.map Mu.energy := by
    unfold col
    rw [hcol _ (by decide +kernel)]
    exact List.map_congr_left (fun x _ => (muMap_entries x).2.2.2.1)
  have c4 : col m "pair" = ms.map Mu.pair := by
    unfold col
    rw [hcol _ (by decide +kernel)]
    exact List.map_congr_left (fun x _ => (muMap_entries x).2.2.2.2.1)
  have c5 : col m "photoelectric" = ms.map Mu.photoelectric := by
    unfold col
    rw [hcol _ (by decide +kernel)]
    exact List.map_congr_left (fun x _ => (muMap_entries x).2.2.2.2.2.1)
  have c6 : ∀ s ∈ photoShells, m.find? s = some (ms.map (fun x => at0 x.partials s)) := by
    intro s hs
    rw [hcol s (List.mem_append_left _ hs)]
    congr 1
    exact List.map_congr_left (fun x _ => (muMap_entries x).1 s hs)
  rw [c1, c2, c3, c4, c5] at hT
  rw [if_neg (by rw [List.length_map, hml, hgl]; simp)] at hT
  obtain ⟨coh, p1, hT⟩ := Outcome.bind_eq_ok.1 hT
  obtain ⟨com, p2, hT⟩ := Outcome.bind_eq_ok.1 hT
  obtain ⟨pai, p3, hT⟩ := Outcome.bind_eq_ok.1 hT
  obtain ⟨pho, p4, hT⟩ := Outcome.bind_eq_ok.1 hT
  rw [hgl] at p1 p2 p3 p4 hT
  rw [show j + energy.length - j = energy.length by omega] at p1 p2 p3 p4
  obtain ⟨l1, r1⟩ := paste_ok (by rw [List.length_map, hml]) hpos p1
  obtain ⟨l2, r2⟩ := paste_ok (by rw [List.length_map, hml]) hpos p2
  obtain ⟨l3, r3⟩ := paste_ok (by rw [List.length_map, hml]) hpos p3
  obtain ⟨l4, r4⟩ := paste_ok (by rw [List.length_map, hml]) hpos p4
  obtain ⟨q1, q2⟩ := shellColumns_ok photoShells _ _ photoShells_nodup hT
  refine ⟨j, edges, ms, T, hj, hx, hms, hml, hlen.2, hlen.1, hjt, l1, l2, l3, h, rfl, ?_, ?_, ?_, ?_, ?_, ?_⟩
  · unfold col
    rw [q1 _ (by decide +kernel)]
    simp only [SMap.find?_insert]
    rw [if_neg (by decide +kernel), if_neg (by decide +kernel), if_neg (by decide +kernel), if_neg (by decide +kernel)]
    exact c3
  · unfold col
    rw [q1 _ (by decide +kernel)]
    simp only [SMap.find?_insert]
    rw [if_neg (by decide +kernel), if_neg (by decide +kernel), if_neg (by decide +kernel), if_pos trivial, r1, List.map_take]
    rfl
  · unfold col
    rw [q1 _ (by decide +kernel)]
    simp only [SMap.find?_insert]
    rw [if_neg (by decide +kernel), if_neg (by decide +kernel), if_pos trivial, r2, List.map_take]
    rfl
  · unfold col
    rw [q1 _ (by decide +kernel)]
    simp only [SMap.find?_insert]
    rw [if_neg (by decide +kernel), if_pos trivial, r3, List.map_take]
    rfl
  · unfold col
    rw [q1 _ (by decide +kernel)]
    simp only [SMap.find?_insert]
    rw [if_pos trivial, r4, List.map_take, ← hlen.1, List.take_length]
    rfl
  · intro s hs
    obtain ⟨c, hc, hc'⟩ := q2 s hs
    refine ⟨c, ?_, hc'⟩
    simp only [SMap.find?_insert] at hc
    have hne : ∀ s ∈ photoShells, s ≠ "coherent".toList ∧ s ≠ "compton".toList ∧ s ≠ "pair".toList ∧
        s ≠ "photoelectric".toList := by decide +kernel
    obtain ⟨n1, n2, n3, n4⟩ := hne s hs
    rw [if_neg (fun h => n4 h.symm), if_neg (fun h => n3 h.symm), if_neg (fun h => n2 h.symm),
      if_neg (fun h => n1 h.symm), c6 s hs] at hc
    exact hc

end Element
end Fisx
