import Verif.ElementLines
import Verif.ElementCascade

/-!
# C142: rates of the emitted lines
-/

set_option linter.unusedSectionVars false

namespace Fisx
namespace Element

variable {K : Type} [Field K] [LinearOrder K] [IsStrictOrderedRing K]

/-! ## Every line has a positive rate -/

/-- All lines of the map have positive rates. -/
def AllPositive (m : SMap Str (Line K)) : Prop := ∀ p ∈ m, 0 < p.2.rate

theorem allPositive_insert {m : SMap Str (Line K)} (h : AllPositive m) {t : Str} {l : Line K} (hl : 0 < l.rate) :
    AllPositive (m.insert t l) := by
  intro p hp
  rcases SMap.mem_insert hp with rfl | hp
  · exact hl
  · exact h p hp

theorem linesOfShell_positive {e : Element K} {y : Bool} {k : Str} {s : Shell K} {v : K} (ratios : List (Str × K)) :
    ∀ acc out, AllPositive acc → linesOfShell e y k s v ratios acc = .ok out → AllPositive out := by
  induction ratios with
  | nil =>
    intro acc out ha h
    simp only [linesOfShell, Outcome.ok.injEq] at h
    subst h; exact ha
  | cons p rest ih =>
    obtain ⟨t, r⟩ := p
    intro acc out ha h
    unfold linesOfShell at h
    obtain ⟨rate, h1, h⟩ := Outcome.bind_eq_ok.mp h
    split at h
    · rename_i hr
      obtain ⟨en, h2, h⟩ := Outcome.bind_eq_ok.mp h
      exact ih _ _ (allPositive_insert ha hr) h
    · exact ih _ _ ha h

theorem linesLoop_positive {e : Element K} {y : Bool} (dist : List (Str × K)) :
    ∀ acc out, AllPositive acc → linesLoop e y dist acc = .ok out → AllPositive out := by
  induction dist with
  | nil =>
    intro acc out ha h
    simp only [linesLoop, Outcome.ok.injEq] at h
    subst h; exact ha
  | cons p rest ih =>
    obtain ⟨k, v⟩ := p
    intro acc out ha h
    unfold linesLoop at h
    split at h
    · cases h
    · obtain ⟨acc', h1, h⟩ := Outcome.bind_eq_ok.mp h
      exact ih _ _ (linesOfShell_positive _ _ _ ha h1) h

theorem getLines_positive_off {e : Element K} (hoff : e.cascadeOn = false ∨ e.cascadeCache = []) {d : SMap Str K}
    {c y : Bool} {out : SMap Str (Line K)} (h : e.getLines d c y = .ok out) : AllPositive out := by
  have nil : AllPositive ([] : SMap Str (Line K)) := by intro p hp; cases hp
  unfold getLines at h
  split at h
  · split at h
    · rename_i hx
      rcases hoff with ho | ho
      · rw [ho] at hx; cases hx.1
      · rw [ho] at hx; simp at hx
    · obtain ⟨f, h1, h⟩ := Outcome.bind_eq_ok.mp h
      exact linesLoop_positive _ _ _ nil h
  · exact linesLoop_positive _ _ _ nil h

theorem fillCascadeLoop_positive {e : Element K} (subs : List Str) :
    ∀ cache cache', (∀ s m, SMap.find? cache s = some m → AllPositive m) → fillCascadeLoop e subs cache = (.ok (), cache') →
      ∀ s m, SMap.find? cache' s = some m → AllPositive m := by
  induction subs with
  | nil =>
    intro cache cache' hc h
    simp only [fillCascadeLoop, Prod.mk.injEq, true_and] at h
    subst h; exact hc
  | cons s rest ih =>
    intro cache cache' hc h
    unfold fillCascadeLoop at h
    split at h
    · rename_i l hl
      refine ih _ _ ?_ h
      intro u m hu
      rw [SMap.find?_insert] at hu
      split at hu
      · cases hu
        exact getLines_positive_off (e := { e with cascadeOn := false }) (Or.inl rfl) hl
      · exact hc u m hu
    · cases h
    · cases h
    · cases h

theorem addCached_positive {w : K} (hw : 0 < w) (lines : List (Str × Line K)) :
    (∀ p ∈ lines, 0 < p.2.rate) → ∀ acc, AllPositive acc → AllPositive (addCached w lines acc) := by
  induction lines with
  | nil => intro _ acc ha; exact ha
  | cons p rest ih =>
    obtain ⟨t, l⟩ := p
    intro hp acc ha
    have hl : 0 < l.rate * w := mul_pos (hp _ List.mem_cons_self) hw
    unfold addCached
    apply ih (fun p hq => hp p (List.mem_cons_of_mem _ hq))
    split
    · exact allPositive_insert ha hl
    · rename_i o ho
      refine allPositive_insert ha ?_
      have := ha _ (SMap.mem_of_find? ho)
      show 0 < o.rate + l.rate * w
      simp only at this
      linarith

theorem cachedLoop_positive {cache : SMap Str (SMap Str (Line K))}
    (hc : ∀ s m, SMap.find? cache s = some m → AllPositive m) (d : List (Str × K)) :
    ∀ acc out, AllPositive acc → cachedLoop cache d acc = .ok out → AllPositive out := by
  induction d with
  | nil =>
    intro acc out ha h
    simp only [cachedLoop, Outcome.ok.injEq] at h
    subst h; exact ha
  | cons p rest ih =>
    obtain ⟨k, v⟩ := p
    intro acc out ha h
    unfold cachedLoop at h
    split at h
    · exact ih _ _ ha h
    · rename_i hv
      split at h
      · cases h
      · rename_i lines hl
        exact ih _ _ (addCached_positive (not_le.1 (fun hh => hv (Or.inl hh))) _ (hc _ _ hl) _ ha) h

/-- **C142** Every line that is returned has a positive rate, whatever the vacancies and the data, with and without the cascade
cache. -/
theorem C142_positive {e : Element K} (hf : Fresh e) {d : SMap Str K} {c y : Bool} {out : SMap Str (Line K)}
    (h : e.getLines d c y = .ok out) : ∀ p ∈ out, 0 < p.2.rate := by
  rcases hf with h0 | ⟨e1, e1', h1, h2, h3⟩
  · exact getLines_positive_off (Or.inr h0) h
  · by_cases hx : c = true ∧ e.cascadeOn = true ∧ y = true ∧ e.cascadeCache.length > 0
    · obtain ⟨rfl, ho, rfl, hl⟩ := hx
      unfold getLines at h
      rw [if_pos rfl, if_pos ⟨ho, rfl, hl⟩] at h
      refine cachedLoop_positive ?_ _ _ _ (fun p hp => by cases hp) h
      intro s m hm
      unfold fillCascadeCache at h1
      dsimp only at h1
      split at h1
      · rename_i hr
        cases h1
        rw [← h2] at hm
        exact fillCascadeLoop_positive (e := e1) _ [] _ (fun s m h => by cases h) (Prod.ext hr rfl) s m hm
      · simp only [Prod.mk.injEq] at h1
        rename_i hr
        exact absurd h1.1 (by intro hh; exact hr hh)
    · have nil : AllPositive ([] : SMap Str (Line K)) := by intro p hp; cases hp
      unfold getLines at h
      split at h
      · rename_i hc
        split at h
        · rename_i hy
          exact absurd ⟨hc, hy.1, hy.2.1, hy.2.2⟩ hx
        · obtain ⟨f, -, h⟩ := Outcome.bind_eq_ok.mp h
          exact linesLoop_positive _ _ _ nil h
      · exact linesLoop_positive _ _ _ nil h

/-! ## The rates -/

/-- The share of the vacancies filled with emission of a photon: the fluorescence yield, or all of them when the call asked
not to use the yield. -/
def Share (y : Bool) (s : Shell K) (w : K) : Prop :=
  if y then s.getFluorescenceYield = .ok w else w = 1

/-- The labels of a shell are distinct and those of different shells too. -/
structure SeparateLines (shells : SMap Str (Shell K)) : Prop where
  nodup : ∀ k s, shells.find? k = some s → (s.fluorescence.map Prod.fst).Nodup
  disjoint : ∀ k s k' s' t r r', shells.find? k = some s → shells.find? k' = some s' →
    (t, r) ∈ s.fluorescence → (t, r') ∈ s'.fluorescence → k = k'

theorem lineRate_ok {y : Bool} {s : Shell K} {r v rate : K} (h : lineRate y s r v = .ok rate) :
    ∃ w, Share y s w ∧ rate = r * v * w := by
  unfold lineRate at h
  unfold Share
  cases y with
  | true =>
    simp only [if_true] at h ⊢
    obtain ⟨w, h1, h⟩ := Outcome.bind_eq_ok.mp h
    simp only [Outcome.pure_eq, Outcome.ok.injEq] at h
    exact ⟨w, h1, h.symm⟩
  | false =>
    simp only [Bool.false_eq_true, if_false, Outcome.ok.injEq] at h ⊢
    exact ⟨1, rfl, by rw [mul_one, h]⟩

theorem linesOfShell_find {e : Element K} {y : Bool} {k : Str} {s : Shell K} {v : K} (ratios : List (Str × K)) :
    (ratios.map Prod.fst).Nodup → ∀ acc out, linesOfShell e y k s v ratios acc = .ok out → ∀ t,
      (∀ r, (t, r) ∈ ratios → ∃ w, Share y s w ∧
        (0 < r * v * w → ∃ en, lineEnergy e k t = .ok en ∧ out.find? t = some { energy := en, rate := r * v * w }) ∧
        (¬ 0 < r * v * w → out.find? t = acc.find? t)) ∧
      ((∀ r, (t, r) ∉ ratios) → out.find? t = acc.find? t) := by
  induction ratios with
  | nil =>
    intro _ acc out h t
    simp only [linesOfShell, Outcome.ok.injEq] at h
    subst h
    exact ⟨fun r hr => (by cases hr), fun _ => rfl⟩
  | cons p rest ih =>
    obtain ⟨t0, r0⟩ := p
    intro hnd acc out h t
    simp only [List.map_cons, List.nodup_cons] at hnd
    unfold linesOfShell at h
    obtain ⟨rate, h1, h⟩ := Outcome.bind_eq_ok.mp h
    obtain ⟨w, hw, hrate⟩ := lineRate_ok h1
    have hmem : ∀ r, (t0, r) ∉ rest := fun r hr => hnd.1 (List.mem_map.2 ⟨(t0, r), hr, rfl⟩)
    split at h
    · rename_i hr
      obtain ⟨en, h2, h⟩ := Outcome.bind_eq_ok.mp h
      have key := ih hnd.2 _ _ h t
      have hne : t0 ≠ t → SMap.find? (acc.insert t0 { energy := en, rate := rate }) t = acc.find? t := by
        intro hn
        rw [SMap.find?_insert, if_neg hn]
      constructor
      · intro r hr'
        rcases List.mem_cons.1 hr' with hh | hh
        · simp only [Prod.mk.injEq] at hh
          obtain ⟨rfl, rfl⟩ := hh
          refine ⟨w, hw, ?_, ?_⟩
          · intro _
            refine ⟨en, h2, ?_⟩
            rw [key.2 hmem, SMap.find?_insert, if_pos rfl, hrate]
          · intro hh
            rw [← hrate] at hh
            exact absurd hr hh
        · obtain ⟨w', a, b, c⟩ := key.1 r hh
          have hn : t0 ≠ t := by rintro rfl; exact hmem r hh
          exact ⟨w', a, b, fun hh' => (c hh').trans (hne hn)⟩
      · intro hno
        have hn : t0 ≠ t := by rintro rfl; exact hno r0 List.mem_cons_self
        rw [key.2 (fun r hr' => hno r (List.mem_cons_of_mem _ hr')), hne hn]
    · rename_i hr
      have key := ih hnd.2 _ _ h t
      constructor
      · intro r hr'
        rcases List.mem_cons.1 hr' with hh | hh
        · simp only [Prod.mk.injEq] at hh
          obtain ⟨rfl, rfl⟩ := hh
          refine ⟨w, hw, ?_, fun _ => key.2 hmem⟩
          intro hh
          rw [← hrate] at hh
          exact absurd hh hr
        · exact key.1 r hh
      · intro hno
        exact key.2 (fun r hr' => hno r (List.mem_cons_of_mem _ hr'))

theorem linesLoop_find {e : Element K} (hs : SeparateLines e.shells) {y : Bool} (dist : List (Str × K)) :
    (dist.map Prod.fst).Nodup → ∀ acc out, linesLoop e y dist acc = .ok out → ∀ t,
      (∀ k v s r, (k, v) ∈ dist → e.shells.find? k = some s → (t, r) ∈ s.fluorescence → ∃ w, Share y s w ∧
        (0 < r * v * w → ∃ en, lineEnergy e k t = .ok en ∧ out.find? t = some { energy := en, rate := r * v * w }) ∧
        (¬ 0 < r * v * w → out.find? t = acc.find? t)) ∧
      ((∀ k v s r, (k, v) ∈ dist → e.shells.find? k = some s → (t, r) ∉ s.fluorescence) → out.find? t = acc.find? t) := by
  induction dist with
  | nil =>
    intro _ acc out h t
    simp only [linesLoop, Outcome.ok.injEq] at h
    subst h
    exact ⟨fun k v s r hm => (by cases hm), fun _ => rfl⟩
  | cons p rest ih =>
    obtain ⟨k0, v0⟩ := p
    intro hnd acc out h t
    simp only [List.map_cons, List.nodup_cons] at hnd
    unfold linesLoop at h
    split at h
    · cases h
    · rename_i s0 hs0
      obtain ⟨acc', h1, h⟩ := Outcome.bind_eq_ok.mp h
      have a := linesOfShell_find s0.fluorescence (hs.nodup k0 s0 hs0) _ _ h1 t
      have b := ih hnd.2 _ _ h t
      have hmem : ∀ v, (k0, v) ∉ rest := fun v hv => hnd.1 (List.mem_map.2 ⟨(k0, v), hv, rfl⟩)
      constructor
      · intro k v s r hm hk hr
        rcases List.mem_cons.1 hm with hh | hh
        · simp only [Prod.mk.injEq] at hh
          obtain ⟨rfl, rfl⟩ := hh
          rw [hs0] at hk
          cases hk
          have skip : out.find? t = acc'.find? t := b.2 (by
            intro k' v' s' r' hm' hk' hr'
            have : k' = k := hs.disjoint k' s' k s0 t r' r hk' hs0 hr' hr
            subst this
            exact hmem v' hm')
          obtain ⟨w, p1, p2, p3⟩ := a.1 r hr
          rw [skip]
          exact ⟨w, p1, p2, p3⟩
        · obtain ⟨w, p1, p2, p3⟩ := b.1 k v s r hh hk hr
          refine ⟨w, p1, p2, fun hn => (p3 hn).trans (a.2 ?_)⟩
          intro r' hr'
          have : k0 = k := hs.disjoint k0 s0 k s t r' r hs0 hk hr' hr
          subst this
          exact hmem v hh
      · intro hno
        rw [b.2 (fun k v s r hm => hno k v s r (List.mem_cons_of_mem _ hm))]
        exact a.2 (fun r => hno k0 v0 s0 r List.mem_cons_self hs0)

theorem zip_fst_nodup {ks : List Str} (h : ks.Nodup) : ∀ f : List K, ((ks.zip f).map Prod.fst).Nodup := by
  induction ks with
  | nil => intro f; simp
  | cons k ks ih =>
    intro f
    cases f with
    | nil => simp
    | cons v f =>
      simp only [List.zip_cons_cons, List.map_cons, List.nodup_cons]
      have h' := List.nodup_cons.1 h
      refine ⟨fun hm => ?_, ih h'.2 f⟩
      obtain ⟨q, hq, hk⟩ := List.mem_map.1 hm
      exact h'.1 (hk ▸ (List.of_mem_zip (a := q.1) (b := q.2) hq).1)

theorem zip_keys_nodup (e : Element K) (f : List K) : (((keys.take e.shells.length).zip f).map Prod.fst).Nodup := by
  have hk : keys.Nodup := by decide +kernel
  exact zip_fst_nodup (hk.sublist (List.take_sublist _ _)) f

theorem share_unique {y : Bool} {s : Shell K} {w w' : K} (h1 : Share y s w) (h2 : Share y s w') : w = w' := by
  unfold Share at h1 h2
  cases y with
  | true =>
    simp only [if_true] at h1 h2
    rw [h1] at h2
    cases h2
    rfl
  | false =>
    simp only [Bool.false_eq_true, if_false] at h1 h2
    rw [h1, h2]

/-- The vacancies that emit: the given ones, or those after the cascade when it is asked for. -/
def Emitting (e : Element K) (d : SMap Str K) (c : Bool) (vac : List (Str × K)) : Prop :=
  if c then e.getCascade d = .ok vac else vac = (keys.take e.shells.length).map (fun k => (k, at0 d k))

theorem getLines_find {e : Element K} (hoff : e.cascadeOn = false ∨ e.cascadeCache = []) (hs : SeparateLines e.shells)
    {d : SMap Str K} {c y : Bool} {out : SMap Str (Line K)} (h : e.getLines d c y = .ok out) :
    ∃ vac : List (Str × K), Emitting e d c vac ∧ ∀ t,
      (∀ k v s r, (k, v) ∈ vac → e.shells.find? k = some s → (t, r) ∈ s.fluorescence → ∃ w, Share y s w ∧
        (0 < r * v * w → ∃ en, lineEnergy e k t = .ok en ∧ out.find? t = some { energy := en, rate := r * v * w }) ∧
        (¬ 0 < r * v * w → out.find? t = none)) ∧
      ((∀ k v s r, (k, v) ∈ vac → e.shells.find? k = some s → (t, r) ∉ s.fluorescence) → out.find? t = none) := by
  unfold getLines at h
  unfold Emitting
  cases c with
  | true =>
    simp only [if_true] at h ⊢
    rw [if_neg (by
      rintro ⟨h1, -, h3⟩
      rcases hoff with ho | ho
      · rw [ho] at h1; cases h1
      · rw [ho] at h3; simp at h3)] at h
    obtain ⟨f, h1, h⟩ := Outcome.bind_eq_ok.mp h
    refine ⟨f, h1, ?_⟩
    unfold getCascade at h1
    obtain ⟨r, -, h1⟩ := Outcome.bind_eq_ok.mp h1
    simp only [Outcome.pure_eq, Outcome.ok.injEq] at h1
    subst h1
    exact linesLoop_find hs _ (zip_keys_nodup e r) _ _ h
  | false =>
    simp only [Bool.false_eq_true, if_false] at h ⊢
    have hz : (keys.take e.shells.length).zip (initialVector e d) =
        (keys.take e.shells.length).map (fun k => (k, at0 d k)) := by
      unfold initialVector
      generalize keys.take e.shells.length = l
      induction l with
      | nil => rfl
      | cons a l ih => simp only [List.map_cons, List.zip_cons_cons, ih]
    refine ⟨_, rfl, ?_⟩
    rw [← hz]
    exact linesLoop_find hs _ (zip_keys_nodup e _) _ _ h

/-- **C142** The lines and their rates: exactly the lines of the shells holding vacancies (those given, or those after the
cascade when it was asked for) for which the product of relative intensity, vacancies and yield is positive; that product
is the rate and the energy is that of the transition. -/
theorem C142_rates {e : Element K} (hoff : e.cascadeOn = false ∨ e.cascadeCache = []) (hs : SeparateLines e.shells)
    {d : SMap Str K} {c y : Bool} {out : SMap Str (Line K)} (h : e.getLines d c y = .ok out) :
    ∃ vac : List (Str × K), Emitting e d c vac ∧
      ∀ t l, out.find? t = some l ↔ ∃ k v s r w, (k, v) ∈ vac ∧ e.shells.find? k = some s ∧ (t, r) ∈ s.fluorescence ∧
        Share y s w ∧ 0 < r * v * w ∧ l.rate = r * v * w ∧ lineEnergy e k t = .ok l.energy := by
  obtain ⟨vac, hv, key⟩ := getLines_find hoff hs h
  refine ⟨vac, hv, fun t l => ?_⟩
  have key := key t
  constructor
  · intro ho
    by_cases hex : ∃ k v s r, (k, v) ∈ vac ∧ e.shells.find? k = some s ∧ (t, r) ∈ s.fluorescence
    · obtain ⟨k, v, s, r, h1, h2, h3⟩ := hex
      obtain ⟨w, hw, p1, p2⟩ := key.1 k v s r h1 h2 h3
      by_cases hpos : 0 < r * v * w
      · obtain ⟨en, q1, q2⟩ := p1 hpos
        rw [ho] at q2
        cases q2
        exact ⟨k, v, s, r, w, h1, h2, h3, hw, hpos, rfl, q1⟩
      · rw [p2 hpos] at ho
        cases ho
    · rw [key.2 (fun k v s r h1 h2 h3 => hex ⟨k, v, s, r, h1, h2, h3⟩)] at ho
      cases ho
  · rintro ⟨k, v, s, r, w, h1, h2, h3, hw, hpos, hr, hen⟩
    obtain ⟨w', hw', p1, -⟩ := key.1 k v s r h1 h2 h3
    have := share_unique hw hw'
    subst this
    obtain ⟨en, q1, q2⟩ := p1 hpos
    rw [q1] at hen
    cases hen
    rw [q2, ← hr]

/-- The rate of a line, 0 when it is not listed. -/
def rateAt (out : SMap Str (Line K)) (t : Str) : K := ((out.find? t).map Line.rate).getD 0

/-- **C142** The lines of a shell do not carry more than its vacancies: for relative intensities and vacancies that are not
negative, their rates add up to the sum of the relative intensities times the vacancies times the yield, so that they are
at most the vacancies when the yield and the sum of the relative intensities (C12) are at most 1. -/
theorem C142_sum {e : Element K} (hoff : e.cascadeOn = false ∨ e.cascadeCache = []) (hs : SeparateLines e.shells)
    {d : SMap Str K} {c y : Bool} {out : SMap Str (Line K)} (h : e.getLines d c y = .ok out) :
    ∃ vac : List (Str × K), Emitting e d c vac ∧
      ∀ k v s w, (k, v) ∈ vac → e.shells.find? k = some s → Share y s w → 0 ≤ v → 0 ≤ w →
        (∀ p ∈ s.fluorescence, 0 ≤ p.2) →
        (s.fluorescence.map (fun p => rateAt out p.1)).sum = (s.fluorescence.map Prod.snd).sum * v * w ∧
        (w ≤ 1 → (s.fluorescence.map Prod.snd).sum ≤ 1 → (s.fluorescence.map (fun p => rateAt out p.1)).sum ≤ v) := by
  obtain ⟨vac, hvac, key⟩ := getLines_find hoff hs h
  refine ⟨vac, hvac, ?_⟩
  intro k v s w hm hk hw hv hw0 hnn
  have hall : ∀ p ∈ s.fluorescence, rateAt out p.1 = p.2 * v * w := by
    rintro ⟨t, r⟩ hr
    have hr0 := hnn _ hr
    obtain ⟨w', hw', p1, p2⟩ := (key t).1 k v s r hm hk hr
    have := share_unique hw hw'
    subst this
    unfold rateAt
    by_cases hpos : 0 < r * v * w
    · obtain ⟨en, -, q⟩ := p1 hpos
      rw [q]
      rfl
    · rw [p2 hpos]
      exact le_antisymm (mul_nonneg (mul_nonneg hr0 hv) hw0) (not_lt.1 hpos)
  have hsum : ∀ l : List (Str × K), (∀ p ∈ l, rateAt out p.1 = p.2 * v * w) →
      (l.map (fun p => rateAt out p.1)).sum = (l.map Prod.snd).sum * v * w := by
    intro l
    induction l with
    | nil => intro _; simp
    | cons p l ih =>
      intro hl
      simp only [List.map_cons, List.sum_cons]
      rw [ih (fun q hq => hl q (List.mem_cons_of_mem _ hq)), hl p List.mem_cons_self]
      ring
  rw [hsum _ hall]
  refine ⟨rfl, fun hw1 hr1 => ?_⟩
  have h0 : 0 ≤ (s.fluorescence.map Prod.snd).sum := List.sum_nonneg (by
    intro x hx
    obtain ⟨p, hp, rfl⟩ := List.mem_map.1 hx
    exact hnn p hp)
  calc (s.fluorescence.map Prod.snd).sum * v * w ≤ 1 * v * w :=
        mul_le_mul_of_nonneg_right (mul_le_mul_of_nonneg_right hr1 hv) hw0
    _ ≤ 1 * v * 1 := by
        rw [one_mul]
        exact mul_le_mul_of_nonneg_left hw1 hv
    _ = v := by ring

/-! ## Excitation factors -/

theorem factors_find (w ph : K) (t : Str) (lines : List (Str × Line K)) :
    SMap.find? (lines.map (fun l => (l.1, ({ energy := l.2.energy, factor := l.2.rate * w, rate := l.2.rate * w * ph } :
      Factor K)))) t = (SMap.find? lines t).map (fun l => { energy := l.energy, factor := w * l.rate, rate := w * l.rate * ph }) := by
  induction lines with
  | nil => rfl
  | cons p l ih =>
    simp only [List.map_cons, SMap.find?_cons]
    split
    · simp only [Option.map_some, Option.some.injEq, Factor.mk.injEq, true_and]
      constructor <;> ring
    · exact ih

/-- **C142** `getPhotoelectricExcitationFactors`: the factor of each line is the rate of emission per photoelectric event (with the
cascade and the yields) times the weight, and its rate that times the photoelectric coefficient. -/
theorem C142_factors [Trans K] {e : Element K} (hc : e.cacheOn = false ∨ e.excCache = []) {x w : K} {fs : SMap Str (Factor K)}
    (h : e.getFactors x w = .ok fs) :
    ∃ vac lines, e.getInitialVacancies x = .ok vac ∧ e.getLines vac true true = .ok lines ∧
      (lines ≠ [] → ∃ m, e.getMu x = .ok m ∧
        ∀ t, fs.find? t = (lines.find? t).map (fun l =>
          ({ energy := l.energy, factor := w * l.rate, rate := w * l.rate * m.photoelectric } : Factor K))) ∧
      (lines = [] → fs = []) := by
  have h' : e.computeFactors x w = .ok fs := by
    unfold getFactors at h
    rcases hc with hc | hc
    · simpa [hc] using h
    · rw [hc] at h
      simpa [SMap.find?] using h
  unfold computeFactors at h'
  obtain ⟨vac, h1, h'⟩ := Outcome.bind_eq_ok.mp h'
  obtain ⟨lines, h2, h'⟩ := Outcome.bind_eq_ok.mp h'
  refine ⟨vac, lines, h1, h2, ?_⟩
  split at h'
  · rename_i hl
    simp only [Outcome.pure_eq, Outcome.ok.injEq] at h'
    exact ⟨fun hh => absurd hl hh, fun _ => h'.symm⟩
  · rename_i hl
    obtain ⟨m, h3, h'⟩ := Outcome.bind_eq_ok.mp h'
    simp only [Outcome.pure_eq, Outcome.ok.injEq] at h'
    refine ⟨fun _ => ⟨m, h3, fun t => ?_⟩, fun hh => absurd hh hl⟩
    subst h'
    exact factors_find w m.photoelectric t lines

/-- **C142** With a positive weight the factors are positive; the rates have the sign of the photoelectric coefficient. -/
theorem C142_factors_positive [Trans K] {e : Element K} (hf : Fresh e) (hc : e.cacheOn = false ∨ e.excCache = []) {x w : K}
    (hw : 0 < w) {fs : SMap Str (Factor K)} (h : e.getFactors x w = .ok fs) :
    ∀ p ∈ fs, 0 < p.2.factor ∧ ∃ m, e.getMu x = .ok m ∧ p.2.rate = p.2.factor * m.photoelectric := by
  have h' : e.computeFactors x w = .ok fs := by
    unfold getFactors at h
    rcases hc with hc | hc
    · simpa [hc] using h
    · rw [hc] at h
      simpa [SMap.find?] using h
  unfold computeFactors at h'
  obtain ⟨vac, h1, h'⟩ := Outcome.bind_eq_ok.mp h'
  obtain ⟨lines, h2, h'⟩ := Outcome.bind_eq_ok.mp h'
  split at h'
  · simp only [Outcome.pure_eq, Outcome.ok.injEq] at h'
    subst h'
    intro p hp
    cases hp
  · obtain ⟨m, h3, h'⟩ := Outcome.bind_eq_ok.mp h'
    simp only [Outcome.pure_eq, Outcome.ok.injEq] at h'
    subst h'
    intro p hp
    obtain ⟨l, hl, rfl⟩ := List.mem_map.1 hp
    exact ⟨mul_pos (C142_positive hf h2 l hl) hw, m, h3, rfl⟩

/-! ### The hypotheses are met -/

def exShellK : Shell ℚ :=
  { name := "K".toList, mainIndex := 1, subIndex := 0, constants := [("omega".toList, 1 / 2)], radiative := [],
    nonradiative := [], auger := [], ck := [], fluorescence := [("KL3".toList, 3 / 4), ("KM3".toList, 1 / 4)] }

def exShellL1 : Shell ℚ :=
  { name := "L1".toList, mainIndex := 2, subIndex := 1, constants := [("omega".toList, 1 / 5)], radiative := [],
    nonradiative := [], auger := [], ck := [], fluorescence := [("L1M3".toList, 1)] }

/-- An element with two shells. -/
def exEmission : Element ℚ :=
  { atomicNumber := 26,
    binding := [("K".toList, 7), ("L1".toList, 4 / 5), ("L3".toList, 7 / 10), ("M3".toList, 1 / 10), ("M5".toList, 0)],
    muEnergy := [], mu := none, partialE := [], partialV := [], cacheOn := false, muCache := [], excCache := [],
    shells := [("K".toList, exShellK), ("L1".toList, exShellL1)], cascadeOn := false, cascadeCache := [] }

theorem exEmission_shells {k : Str} {s : Shell ℚ} (h : exEmission.shells.find? k = some s) :
    (k, s) ∈ exEmission.shells := SMap.mem_of_find? h

/-- The hypotheses of `C142_rates` and `C142_sum` hold for a call that returns three lines. -/
example : SeparateLines exEmission.shells ∧ exEmission.cascadeOn = false ∧ Fresh exEmission ∧
    exEmission.getLines [("K".toList, 1), ("L1".toList, 2)] false true = .ok
      [("KL3".toList, ⟨63 / 10, 3 / 8⟩), ("KM3".toList, ⟨69 / 10, 1 / 8⟩), ("L1M3".toList, ⟨7 / 10, 2 / 5⟩)] := by
  refine ⟨⟨?_, ?_⟩, rfl, Or.inl rfl, ?_⟩
  · intro k s h
    have := exEmission_shells h
    simp only [exEmission, List.mem_cons, Prod.mk.injEq, List.not_mem_nil, or_false] at this
    rcases this with ⟨rfl, rfl⟩ | ⟨rfl, rfl⟩
    · decide
    · decide
  · intro k s k' s' t r r' h h' hr hr'
    have a := exEmission_shells h
    have b := exEmission_shells h'
    simp only [exEmission, List.mem_cons, Prod.mk.injEq, List.not_mem_nil, or_false] at a b
    rcases a with ⟨rfl, rfl⟩ | ⟨rfl, rfl⟩ <;> rcases b with ⟨rfl, rfl⟩ | ⟨rfl, rfl⟩ <;>
      simp only [exShellK, exShellL1, List.mem_cons, Prod.mk.injEq, List.not_mem_nil, or_false] at hr hr' ⊢
    · rcases hr with ⟨rfl, -⟩ | ⟨rfl, -⟩ <;> exact absurd hr'.1 (by decide)
    · rcases hr' with ⟨rfl, -⟩ | ⟨rfl, -⟩ <;> exact absurd hr.1 (by decide)
  · decide +kernel

end Element
end Fisx
