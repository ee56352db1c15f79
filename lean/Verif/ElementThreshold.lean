import Verif.ElementLines

/-!
# C70: a photon cannot ionise a subshell bound more tightly than its energy

Statements about the API of an element: partial photoelectric coefficients, vacancies, and emitted lines.
-/

set_option linter.unusedSectionVars false

namespace Fisx
namespace Element

variable {K : Type} [Field K] [LinearOrder K] [IsStrictOrderedRing K]

/-! ### Specification -/

/-- Photons of energy `x` cannot ionise the subshell `s`: it is not occupied (no binding energy) or it is bound more
tightly than that. -/
def Closed (e : Element K) (s : Str) (x : K) : Prop :=
  ∃ b, e.binding.find? s = some b ∧ (b = 0 ∨ x < b)

/-- Photons of energy `x` can ionise the subshell `s`. -/
def Open (e : Element K) (s : Str) (x : K) : Prop :=
  ∃ b, e.binding.find? s = some b ∧ b ≠ 0 ∧ b ≤ x

/-- The subshells from the innermost, K, to `k` itself. -/
def Inner (i k : Str) : Prop := ∃ m n : Nat, keys[m]? = some i ∧ keys[n]? = some k ∧ m ≤ n

/-! ### Lemmas -/

section coefficients

variable [Trans K]

theorem partialsLoop_keep {e : Element K} {x : K} (shells : List Str) (s : Str) (hs : s ∉ shells) :
    ∀ acc out, partialsLoop e x shells acc = .ok out → out.find? s = acc.find? s := by
  induction shells with
  | nil => intro acc out h; simp only [partialsLoop, Outcome.ok.injEq] at h; rw [h]
  | cons a r ih =>
    intro acc out h
    simp only [List.mem_cons, not_or] at hs
    have hi : ∀ v, (acc.insert a v).find? s = acc.find? s := by
      intro v; rw [SMap.find?_insert, if_neg (Ne.symm hs.1)]
    unfold partialsLoop at h
    split at h
    · split at h
      · cases h
      · split at h
        · rw [ih hs.2 _ _ h, hi]
        · obtain ⟨v, hv, h⟩ := Outcome.bind_eq_ok.mp h
          rw [ih hs.2 _ _ h, hi]
    · obtain ⟨v, hv, h⟩ := Outcome.bind_eq_ok.mp h
      rw [ih hs.2 _ _ h, hi]

/-- What the loop stores for a subshell. -/
theorem partialsLoop_find {e : Element K} {x : K} (shells : List Str) (hnd : shells.Nodup) (s : Str) (hs : s ∈ shells)
    (hother : s ≠ allOther) : ∀ acc out, partialsLoop e x shells acc = .ok out →
      ∃ b, e.binding.find? s = some b ∧
        ((b = 0 ∨ x < b) ∧ out.find? s = some 0 ∨
         (b ≠ 0 ∧ b ≤ x) ∧ ∃ v, partialValue false ((e.partialE.find? s).getD []) ((e.partialV.find? s).getD []) x = .ok v ∧
          out.find? s = some v) := by
  induction shells with
  | nil => simp at hs
  | cons a r ih =>
    intro acc out h
    rw [List.nodup_cons] at hnd
    by_cases ha : a = s
    · subst ha
      unfold partialsLoop at h
      rw [if_pos hother] at h
      split at h
      · cases h
      · rename_i b hb
        refine ⟨b, hb, ?_⟩
        split at h
        · rename_i hc
          left
          refine ⟨hc, ?_⟩
          rw [partialsLoop_keep r a hnd.1 _ _ h, SMap.find?_insert, if_pos rfl]
        · rename_i hc
          obtain ⟨v, hv, h⟩ := Outcome.bind_eq_ok.mp h
          right
          rw [not_or, not_lt] at hc
          refine ⟨hc, v, hv, ?_⟩
          rw [partialsLoop_keep r a hnd.1 _ _ h, SMap.find?_insert, if_pos rfl]
    · have hs' : s ∈ r := by
        rcases List.mem_cons.mp hs with h' | h'
        · exact absurd h'.symm ha
        · exact h'
      unfold partialsLoop at h
      split at h
      · split at h
        · cases h
        · split at h
          · exact ih hnd.2 hs' _ _ h
          · obtain ⟨v, hv, h⟩ := Outcome.bind_eq_ok.mp h
            exact ih hnd.2 hs' _ _ h
      · obtain ⟨v, hv, h⟩ := Outcome.bind_eq_ok.mp h
        exact ih hnd.2 hs' _ _ h

theorem keys_photo {s : Str} (h : s ∈ keys) : s ∈ photoShells ∧ s ≠ allOther := by
  constructor
  · exact List.mem_append_left _ h
  · rintro rfl
    revert h
    decide

theorem photo_nodup : photoShells.Nodup := by decide

/-- **C70** The partial photoelectric coefficient of a subshell that photons of the energy cannot ionise is zero, for
every data an element may hold. -/
theorem C70_partial_coefficients (e : Element K) (x : K) (p : SMap Str K) (h : e.getPartials x = .ok p) (s : Str)
    (hs : s ∈ keys) (hc : Closed e s x) : p.find? s = some 0 := by
  obtain ⟨b, hb, hc⟩ := hc
  obtain ⟨h1, h2⟩ := keys_photo hs
  obtain ⟨b', hb', h3 | ⟨h3, -⟩⟩ := partialsLoop_find photoShells photo_nodup s h1 h2 _ _ h
  · exact h3.2
  · rw [hb] at hb'
    cases hb'
    rcases hc with hc | hc
    · exact absurd hc h3.1
    · exact absurd h3.2 (not_le.mpr hc)

theorem computeMu_parts {e : Element K} {x : K} {m : Mu K} (h : computeMu e x = .ok m) :
    partialsOrZero e x = .ok m.partials := by
  unfold computeMu at h
  obtain ⟨parts, h1, h⟩ := Outcome.bind_eq_ok.mp h
  obtain ⟨b, -, h⟩ := Outcome.bind_eq_ok.mp h
  obtain ⟨b, -, h⟩ := Outcome.bind_eq_ok.mp h
  obtain ⟨b, -, h⟩ := Outcome.bind_eq_ok.mp h
  obtain ⟨b, -, h⟩ := Outcome.bind_eq_ok.mp h
  simp only [Outcome.pure_eq, Outcome.ok.injEq] at h
  rw [h1, ← h]

theorem partialsOrZero_closed {e : Element K} {x : K} {p : SMap Str K} (h : partialsOrZero e x = .ok p) {s : Str}
    (hs : s ∈ keys) (hc : Closed e s x) : at0 p s = 0 := by
  unfold partialsOrZero at h
  split at h
  · unfold at0
    rw [C70_partial_coefficients e x p h s hs hc]; rfl
  · simp only [Outcome.ok.injEq] at h
    rw [ofList_photo (fun _ => (0 : K))] at h
    rw [← h]
    exact at0_map photoShells (fun _ => 0) s (keys_photo hs).1

/-- The state of an element reached by a history of calls that keep the caches valid. -/
def Usable (e e' : Element K) : Prop :=
  e.cascadeCache = [] ∧ e.muCache = [] ∧ e.excCache = [] ∧
    ∃ ops : List (Op K), CalmHistory e ops ∧ KeepsHistory e ops ∧ e' = run e ops

theorem Usable.cacheTrue {e e' : Element K} (h : Usable e e') : CacheTrue e' := by
  obtain ⟨-, h1, h2, ops, -, hk, rfl⟩ := h
  have key : ∀ (ops : List (Op K)) (e : Element K), CacheTrue e → KeepsHistory e ops → CacheTrue (run e ops) := by
    intro ops
    induction ops with
    | nil => intro e h _; exact h
    | cons op r ih => intro e h hk; exact ih _ (cacheTrue_step h op hk.1) hk.2
  exact key ops e (cacheTrue_empty h1 h2) hk

theorem Usable.fresh {e e' : Element K} (h : Usable e e') : Fresh e' := by
  obtain ⟨h0, -, -, ops, hc, -, rfl⟩ := h
  exact fresh_run (Or.inl h0) ops hc

theorem getMu_closed {e : Element K} (ht : CacheTrue e) {x : K} {m : Mu K} (h : e.getMu x = .ok m) {s : Str}
    (hs : s ∈ keys) (hc : Closed e s x) : at0 m.partials s = 0 := by
  rw [getMu_eq ht.mu, getMu_plain] at h
  split at h
  · cases h
  · exact partialsOrZero_closed (computeMu_parts h) hs hc

theorem vacancies_closed {e : Element K} (ht : CacheTrue e) {x : K} {d : SMap Str K} (h : e.getInitialVacancies x = .ok d)
    {s : Str} (hs : s ∈ keys) (hc : Closed e s x) : at0 d s = 0 := by
  unfold getInitialVacancies at h
  obtain ⟨m, hm, h⟩ := Outcome.bind_eq_ok.mp h
  simp only [Outcome.pure_eq, Outcome.ok.injEq] at h
  rw [ofList_photo (fun s => if m.photoelectric > 0 then at0 m.partials s / m.photoelectric else 0)] at h
  rw [← h, at0_map photoShells _ s (keys_photo hs).1, getMu_closed ht hm hs hc]
  simp

/-- **C70** No vacancy is created in such a subshell, with the calculation cache on or off. -/
theorem C70_vacancies {e0 e : Element K} (hu : Usable e0 e) (x : K) (d : SMap Str K)
    (h : e.getInitialVacancies x = .ok d) (s : Str) (hs : s ∈ keys) (hc : Closed e s x) : d.find? s = some 0 := by
  have h0 := vacancies_closed hu.cacheTrue h hs hc
  unfold getInitialVacancies at h
  obtain ⟨m, hm, h⟩ := Outcome.bind_eq_ok.mp h
  simp only [Outcome.pure_eq, Outcome.ok.injEq] at h
  rw [ofList_photo (fun s => if m.photoelectric > 0 then at0 m.partials s / m.photoelectric else 0)] at h
  have hk : s ∈ SMap.keys d := by
    rw [← h]
    simp only [SMap.keys, List.map_map, Function.comp_def, List.map_id']
    exact (keys_photo hs).1
  cases hf : d.find? s with
  | none => obtain ⟨p, hp, rfl⟩ := List.mem_map.mp hk; exact absurd rfl ((SMap.find?_eq_none_iff _ _).mp hf p hp)
  | some v => unfold at0 at h0; rw [hf] at h0; simpa using h0

end coefficients

/-! ### Lines -/

/-- `t` is a line of the subshell `k`. -/
def LineOfShell (e : Element K) (k t : Str) : Prop := ∃ s r, e.shells.find? k = some s ∧ (t, r) ∈ s.fluorescence

theorem linesOfShell_pred {e : Element K} {y : Bool} {k : Str} {s : Shell K} {v : K} (P : Str → Prop)
    (ratios : List (Str × K)) (hp : v ≠ 0 → ∀ q ∈ ratios, P q.1) :
    ∀ acc out, (∀ q ∈ acc, P q.1) → linesOfShell e y k s v ratios acc = .ok out → ∀ q ∈ out, P q.1 := by
  induction ratios with
  | nil =>
    intro acc out ha h
    simp only [linesOfShell, Outcome.ok.injEq] at h
    subst h; exact ha
  | cons p rest ih =>
    obtain ⟨t, r⟩ := p
    intro acc out ha h
    have hp' : v ≠ 0 → ∀ q ∈ rest, P q.1 := fun hv q hq => hp hv q (List.mem_cons_of_mem _ hq)
    unfold linesOfShell at h
    obtain ⟨rate, h1, h⟩ := Outcome.bind_eq_ok.mp h
    split at h
    · rename_i hr
      obtain ⟨en, h2, h⟩ := Outcome.bind_eq_ok.mp h
      have hv : v ≠ 0 := by
        rintro rfl
        unfold lineRate at h1
        split at h1
        · obtain ⟨w, -, h1⟩ := Outcome.bind_eq_ok.mp h1
          simp only [Outcome.pure_eq, Outcome.ok.injEq] at h1
          rw [← h1] at hr; simp at hr
        · simp only [Outcome.ok.injEq] at h1
          rw [← h1] at hr; simp at hr
      refine ih hp' _ _ ?_ h
      intro q hq
      rcases SMap.mem_insert hq with rfl | hq
      · exact hp hv _ List.mem_cons_self
      · exact ha q hq
    · exact ih hp' _ _ ha h

theorem linesLoop_pred {e : Element K} {y : Bool} (P : Str → Prop) (dist : List (Str × K))
    (hp : ∀ q ∈ dist, q.2 ≠ 0 → ∀ t, LineOfShell e q.1 t → P t) :
    ∀ acc out, (∀ q ∈ acc, P q.1) → linesLoop e y dist acc = .ok out → ∀ q ∈ out, P q.1 := by
  induction dist with
  | nil =>
    intro acc out ha h
    simp only [linesLoop, Outcome.ok.injEq] at h
    subst h; exact ha
  | cons p rest ih =>
    obtain ⟨k, v⟩ := p
    intro acc out ha h
    unfold linesLoop at h
    split at h
    · cases h
    · rename_i s hs
      obtain ⟨acc', h1, h⟩ := Outcome.bind_eq_ok.mp h
      refine ih (fun q hq => hp q (List.mem_cons_of_mem _ hq)) _ _ ?_ h
      refine linesOfShell_pred P _ ?_ _ _ ha h1
      intro hv q hq
      exact hp (k, v) List.mem_cons_self hv q.1 ⟨s, q.2, hs, hq⟩

/-- A shell has no vacancies after the cascade when neither it nor the inner ones had any. -/
theorem cascadeLoop_zero (shells : SMap Str (Shell K)) (ks : List Str) : ∀ (vs r : List K),
    cascadeLoop shells ks vs = .ok r → ∀ n, (∀ m, m ≤ n → vs.getD m 0 = 0) → r.getD n 0 = 0 := by
  induction ks with
  | nil =>
    intro vs r h n _
    simp only [cascadeLoop, Outcome.ok.injEq] at h
    subst h; simp
  | cons k ks ih =>
    intro vs r h n hz
    cases vs with
    | nil =>
      simp only [cascadeLoop, Outcome.ok.injEq] at h
      subst h; simp
    | cons v vs =>
      unfold cascadeLoop at h
      obtain ⟨vs', h1, h⟩ := Outcome.bind_eq_ok.mp h
      obtain ⟨r', h2, h⟩ := Outcome.bind_eq_ok.mp h
      simp only [Outcome.pure_eq, Outcome.ok.injEq] at h
      subst h
      have hv : v = 0 := by simpa using hz 0 (Nat.zero_le _)
      unfold propagate at h1
      rw [if_neg (by rw [hv]; exact lt_irrefl _)] at h1
      simp only [Outcome.ok.injEq] at h1
      subst h1
      cases n with
      | zero => simpa using hv
      | succ n =>
        have := ih _ _ h2 n (fun m hm => by simpa using hz (m + 1) (by omega))
        simpa using this

theorem take_get {n m : Nat} {k : Str} (h : (keys.take n)[m]? = some k) : keys[m]? = some k := by
  rw [List.getElem?_take] at h
  split at h
  · exact h
  · cases h

theorem initialVector_getD (e : Element K) (d : SMap Str K) (m : Nat) (h : (initialVector e d).getD m 0 ≠ 0) :
    ∃ i, keys[m]? = some i ∧ at0 d i ≠ 0 := by
  unfold initialVector at h
  rw [List.getD_eq_getElem?_getD, List.getElem?_map] at h
  cases hk : (keys.take e.shells.length)[m]? with
  | none => rw [hk] at h; simp at h
  | some i =>
    rw [hk] at h
    exact ⟨i, take_get hk, by simpa using h⟩

theorem getLines_source_off {e : Element K} {d : SMap Str K} {y : Bool} {out : SMap Str (Line K)}
    (hx : ¬ (e.cascadeOn = true ∧ y = true ∧ e.cascadeCache.length > 0)) (h : e.getLines d true y = .ok out) :
    ∀ q ∈ out, ∃ i k, Inner i k ∧ at0 d i ≠ 0 ∧ LineOfShell e k q.1 := by
  unfold getLines at h
  rw [if_pos rfl, if_neg hx] at h
  obtain ⟨f, h1, h⟩ := Outcome.bind_eq_ok.mp h
  refine linesLoop_pred (fun t => ∃ i k, Inner i k ∧ at0 d i ≠ 0 ∧ LineOfShell e k t) _ ?_ _ _ (by simp) h
  intro q hq hv t ht
  unfold getCascade at h1
  obtain ⟨r, h2, h1⟩ := Outcome.bind_eq_ok.mp h1
  simp only [Outcome.pure_eq, Outcome.ok.injEq] at h1
  subst h1
  obtain ⟨n, hn⟩ := List.mem_iff_getElem?.mp hq
  rw [List.getElem?_zip_eq_some] at hn
  by_contra hno
  apply hv
  have := cascadeLoop_zero e.shells _ _ _ h2 n (fun m hm => by
    by_contra hne
    obtain ⟨i, hi, hne⟩ := initialVector_getD e d m hne
    exact hno ⟨i, q.1, ⟨m, n, hi, take_get hn.1, hm⟩, hne, ht⟩)
  rw [List.getD_eq_getElem?_getD, hn.2] at this
  simpa using this

theorem lineOfShell_congr {e e' : Element K} (h : SameEmission e e') {k t : Str} (hl : LineOfShell e k t) :
    LineOfShell e' k t := by
  obtain ⟨s, r, h1, h2⟩ := hl
  exact ⟨s, r, by rw [← h.shells]; exact h1, h2⟩

theorem fillCascadeLoop_source {e : Element K} (subs : List Str) :
    ∀ cache cache', (∀ s m, SMap.find? cache s = some m → SMap.Sorted m ∧ ∀ q ∈ m, ∃ k, Inner s k ∧ LineOfShell e k q.1) →
      fillCascadeLoop e subs cache = (.ok (), cache') →
      ∀ s m, SMap.find? cache' s = some m → SMap.Sorted m ∧ ∀ q ∈ m, ∃ k, Inner s k ∧ LineOfShell e k q.1 := by
  induction subs with
  | nil =>
    intro cache cache' hc h
    simp only [fillCascadeLoop, Prod.mk.injEq, true_and] at h
    subst h; exact hc
  | cons s rest ih =>
    intro cache cache' hc h
    unfold fillCascadeLoop at h
    split at h
    · rename_i l hl
      refine ih _ _ ?_ h
      intro u m hu
      rw [SMap.find?_insert] at hu
      split at hu
      · rename_i hus
        cases hu
        refine ⟨(getLines_linesOf_off (e := { e with cascadeOn := false }) (Or.inl rfl) hl).1, ?_⟩
        intro q hq
        obtain ⟨i, k, h1, h2, h3⟩ := getLines_source_off (e := { e with cascadeOn := false }) (by simp) hl q hq
        rw [at0_unit] at h2
        split at h2
        · rename_i hsi
          rw [← hus, hsi]
          exact ⟨k, h1, h3⟩
        · exact absurd rfl h2
      · exact hc u m hu
    · cases h
    · cases h
    · cases h

theorem addCached_pred {w : K} (P : Str → Prop) (lines : List (Str × Line K)) (hp : ∀ q ∈ lines, P q.1) :
    ∀ acc : SMap Str (Line K), (∀ q ∈ acc, P q.1) → ∀ q ∈ addCached w lines acc, P q.1 := by
  induction lines with
  | nil => intro acc ha; exact ha
  | cons p rest ih =>
    obtain ⟨t, l⟩ := p
    intro acc ha
    unfold addCached
    apply ih (fun q hq => hp q (List.mem_cons_of_mem _ hq))
    intro q hq
    split at hq
    all_goals
      rcases SMap.mem_insert hq with rfl | hq
      · exact hp (t, l) List.mem_cons_self
      · exact ha q hq

theorem cachedLoop_pred {cache : SMap Str (SMap Str (Line K))} (P : Str → Prop) (d : List (Str × K))
    (hp : ∀ q ∈ d, 0 < q.2 → ∀ m, cache.find? q.1 = some m → ∀ l ∈ m, P l.1) :
    ∀ acc out, (∀ q ∈ acc, P q.1) → cachedLoop cache d acc = .ok out → ∀ q ∈ out, P q.1 := by
  induction d with
  | nil =>
    intro acc out ha h
    simp only [cachedLoop, Outcome.ok.injEq] at h
    subst h; exact ha
  | cons p rest ih =>
    obtain ⟨k, v⟩ := p
    intro acc out ha h
    unfold cachedLoop at h
    split at h
    · exact ih (fun q hq => hp q (List.mem_cons_of_mem _ hq)) _ _ ha h
    · rename_i hv
      rw [not_or, not_le] at hv
      split at h
      · cases h
      · rename_i lines hl
        refine ih (fun q hq => hp q (List.mem_cons_of_mem _ hq)) _ _ (addCached_pred P _ ?_ _ ha) h
        exact hp (k, v) List.mem_cons_self hv.1 _ hl

/-- Where emitted lines come from, with the cascade cache or without it. -/
theorem getLines_source {e : Element K} (hf : Fresh e) {d : SMap Str K} (hd : SMap.Sorted d) {y : Bool}
    {out : SMap Str (Line K)} (h : e.getLines d true y = .ok out) :
    ∀ q ∈ out, ∃ i k, Inner i k ∧ at0 d i ≠ 0 ∧ LineOfShell e k q.1 := by
  by_cases hx : e.cascadeOn = true ∧ y = true ∧ e.cascadeCache.length > 0
  · rcases hf with h0 | ⟨e1, e1', h1, h2, h3⟩
    · rw [h0] at hx; simp at hx
    · obtain ⟨ho, rfl, hl⟩ := hx
      unfold getLines at h
      rw [if_pos rfl, if_pos ⟨ho, rfl, hl⟩] at h
      refine cachedLoop_pred (fun t => ∃ i k, Inner i k ∧ at0 d i ≠ 0 ∧ LineOfShell e k t) _ ?_ _ _ (by simp) h
      intro q hq hv m hm l hlm
      unfold fillCascadeCache at h1
      dsimp only at h1
      split at h1
      · rename_i hr
        cases h1
        rw [← h2] at hm
        obtain ⟨-, h4⟩ := fillCascadeLoop_source (e := e1) _ [] _ (fun s m h => by cases h) (Prod.ext hr rfl) q.1 m hm
        obtain ⟨k, h5, h6⟩ := h4 l hlm
        refine ⟨q.1, k, h5, ?_, lineOfShell_congr h3 h6⟩
        unfold at0
        rw [SMap.find?_of_mem hd hq]
        exact ne_of_gt hv
      · simp only [Prod.mk.injEq] at h1
        rename_i hr
        exact absurd h1.1 (by intro hh; exact hr hh)
  · exact getLines_source_off hx h

section factors

variable [Trans K]

theorem partials_open {e : Element K} (ht : CacheTrue e) {x : K} {d : SMap Str K} (h : e.getInitialVacancies x = .ok d)
    {s : Str} (hs : s ∈ keys) (hne : at0 d s ≠ 0) : Open e s x := by
  by_contra hno
  have hb : ∃ b, e.binding.find? s = some b := by
    unfold getInitialVacancies at h
    obtain ⟨m, hm, h⟩ := Outcome.bind_eq_ok.mp h
    simp only [Outcome.pure_eq, Outcome.ok.injEq] at h
    rw [ofList_photo (fun s => if m.photoelectric > 0 then at0 m.partials s / m.photoelectric else 0)] at h
    rw [← h, at0_map photoShells _ s (keys_photo hs).1] at hne
    rw [getMu_eq ht.mu, getMu_plain] at hm
    split at hm
    · cases hm
    · have hp := computeMu_parts hm
      unfold partialsOrZero at hp
      split at hp
      · obtain ⟨b, hb, -⟩ := partialsLoop_find photoShells photo_nodup s (keys_photo hs).1 (keys_photo hs).2 _ _ hp
        exact ⟨b, hb⟩
      · exfalso
        simp only [Outcome.ok.injEq] at hp
        rw [ofList_photo (fun _ => (0 : K))] at hp
        rw [← hp, at0_map photoShells (fun _ => (0 : K)) s (keys_photo hs).1] at hne
        simp at hne
  obtain ⟨b, hb⟩ := hb
  refine hne (vacancies_closed ht h hs ⟨b, hb, ?_⟩)
  by_contra hc
  rw [not_or, not_lt] at hc
  exact hno ⟨b, hb, hc.1, hc.2⟩

/-- **C70** Every line excited by photons of an energy is a line of a subshell that those photons can ionise, or of a
subshell further out than one of those (from which the vacancy was transferred), with the caches on or off. -/
theorem C70_lines {e0 e : Element K} (hu : Usable e0 e) (x w : K) (fs : SMap Str (Factor K))
    (h : e.getFactors x w = .ok fs) (t : Str) (ht : t ∈ fs.map Prod.fst) :
    ∃ i k, Open e i x ∧ Inner i k ∧ LineOfShell e k t := by
  have hct := hu.cacheTrue
  rw [(cacheTrue_transparent hct x w).2] at h
  simp only [getFactors, Bool.false_eq_true, if_false] at h
  unfold computeFactors at h
  obtain ⟨vac, h1, h⟩ := Outcome.bind_eq_ok.mp h
  obtain ⟨lines, h2, h⟩ := Outcome.bind_eq_ok.mp h
  have h1' : e.getInitialVacancies x = .ok vac := by
    unfold getInitialVacancies at h1 ⊢
    rw [(cacheTrue_transparent hct x w).1]; exact h1
  have hsort : SMap.Sorted vac := by
    unfold getInitialVacancies at h1
    obtain ⟨m, hm, h1⟩ := Outcome.bind_eq_ok.mp h1
    simp only [Outcome.pure_eq, Outcome.ok.injEq] at h1
    rw [← h1]; exact SMap.ofList_sorted _
  have hs : SameEmission ({ e with cacheOn := false } : Element K) e := ⟨rfl, fun _ _ => rfl⟩
  have hl := getLines_source (e := { e with cacheOn := false }) (fresh_congr hu.fresh hs.symm rfl) hsort h2
  have hkeys : t ∈ lines.map Prod.fst := by
    split at h
    · cases h; cases ht
    · obtain ⟨m, h3, h⟩ := Outcome.bind_eq_ok.mp h
      simp only [Outcome.pure_eq, Outcome.ok.injEq] at h
      subst h
      simpa [List.map_map, Function.comp_def] using ht
  obtain ⟨q, hq, rfl⟩ := List.mem_map.mp hkeys
  obtain ⟨i, k, h3, h4, h5⟩ := hl q hq
  have hik : i ∈ keys := by
    obtain ⟨m, n, hm, -, -⟩ := h3
    exact List.mem_of_getElem? hm
  exact ⟨i, k, partials_open hct h1' hik h4, h3, lineOfShell_congr hs h5⟩

/-- **C70** Below every binding energy there are no lines. -/
theorem C70_no_lines {e0 e : Element K} (hu : Usable e0 e) (x w : K) (fs : SMap Str (Factor K))
    (h : e.getFactors x w = .ok fs) (hclosed : ∀ s ∈ keys, Closed e s x) : fs = [] := by
  rcases fs with _ | ⟨⟨t, f⟩, r⟩
  · rfl
  · obtain ⟨i, k, ⟨b, hb, hb0, hbx⟩, ⟨m, n, hm, -, -⟩, -⟩ := C70_lines hu x w _ h t (by simp)
    obtain ⟨b', hb', hc⟩ := hclosed i (List.mem_of_getElem? hm)
    rw [hb] at hb'
    cases hb'
    rcases hc with hc | hc
    · exact absurd hc hb0
    · exact absurd hbx (not_le.mpr hc)

/-- **C70** getExcitedShells gives the subshells whose edge lies strictly below the energy, and only those. -/
theorem C70_excited_shells (e : Element K) (hb : SMap.Sorted e.binding) (x : K) (s : Str) :
    s ∈ e.getExcitedShells x ↔ ∃ b, e.binding.find? s = some b ∧ 0 < b ∧ b < x := by
  unfold getExcitedShells
  simp only [List.mem_map, List.mem_filter, decide_eq_true_eq]
  constructor
  · rintro ⟨p, ⟨hp, h1, h2⟩, rfl⟩
    exact ⟨p.2, SMap.find?_of_mem hb hp, h1, h2⟩
  · rintro ⟨b, hf, h1, h2⟩
    exact ⟨(s, b), ⟨SMap.mem_of_find? hf, h1, h2⟩, rfl⟩

end factors

section examples

attribute [local instance] exampleTrans

/-- C70: an element with tables and filled caches, used between its L and K edges: the K subshell is closed, L3 is
open, and its line is the only one. -/
example : ∃ ops : List (Op ℚ), let e0 := (run exampleElement tableOps).clearCache.emptyCascadeCache
    let e := run e0 ops
    Usable e0 e ∧ e.muCache.length = 1 ∧ e.cacheOn = true ∧ Closed e "K".toList 5 ∧ Open e "L3".toList 5 ∧
    (e.getFactors 5 1).bind (fun r => .ok (r.map Prod.fst)) = .ok ["L3M5".toList] := by
  refine ⟨[.updateCache [5], .setCacheEnabled true], ?_⟩
  refine ⟨⟨?_, ?_, ?_, _, ?_, ?_, rfl⟩, ?_, ?_, ?_, ?_, ?_⟩
  · rfl
  · rfl
  · rfl
  · simp only [CalmHistory, Op.Calm]; trivial
  · simp only [KeepsHistory, Op.KeepsCache]; trivial
  · decide +kernel
  · decide +kernel
  · exact ⟨7, by decide +kernel, by decide⟩
  · exact ⟨7 / 10, by decide +kernel, by norm_num⟩
  · decide +kernel

/-- **C70** (boundary) At the edge itself the subshell already absorbs, but getExcitedShells does not list it. -/
theorem C70_edge_example : ∃ e : Element ℚ, e = run exampleElement tableOps ∧
    "K".toList ∉ e.getExcitedShells 7 ∧ (e.getPartials 7).bind (fun p => .ok (decide (0 < at0 p "K".toList))) = .ok true := by
  refine ⟨_, rfl, ?_⟩
  decide +kernel

end examples

end Element
end Fisx
