import Verif.ElementInterp
import Verif.ShellLemmas
import Mathlib.Tactic.IntervalCases

/-!
# Properties of `fisx::Element`: C20 (bounded cache), C21 (initial vacancies), C22 (API level), C52 (tables),
C53 (line energies)
-/

set_option linter.unusedSectionVars false

namespace Fisx
namespace Element

section general

variable {K : Type} [Field K] [LinearOrder K] [IsStrictOrderedRing K] [Trans K]

/-! ### Induction principles for the loops filling the cache -/

theorem fillLoop_induct (P : Element K → Prop)
    (hmu : ∀ e x m, P e → getMu e x = .ok m → P { e with muCache := e.muCache.insert x m })
    (hexc : ∀ e x f, P e → e.muCache.mem x = true → getFactors e x 1 = .ok f →
      P { e with excCache := e.excCache.insert x f })
    (e : Element K) (l : List K) (h : P e) : P (fillLoop e l).2 := by
  induction l generalizing e with
  | nil => exact h
  | cons x r ih =>
    unfold fillLoop
    split
    · rename_i m hm
      have h1 := hmu e x m h hm
      simp only
      split
      · rename_i f hf
        exact ih _ (hexc _ x f h1 (by simp [SMap.mem, SMap.find?_insert]) hf)
      all_goals exact h1
    all_goals exact h

theorem updateLoop_induct (P : Element K → Prop)
    (hmu : ∀ e x m, P e → e.muCache.length < cacheMaximumSize → getMu e x = .ok m →
      P { e with muCache := e.muCache.insert x m })
    (hexc : ∀ e x f, P e → e.muCache.mem x = true → getFactors e x 1 = .ok f →
      P { e with excCache := e.excCache.insert x f })
    (e : Element K) (l : List K) (h : P e) : P (updateLoop e l).2 := by
  induction l generalizing e with
  | nil => exact h
  | cons x r ih =>
    unfold updateLoop
    split
    · rename_i hlt
      simp only
      by_cases hmem : e.muCache.mem x = true
      · simp only [hmem, if_true]
        split
        · exact ih _ h
        · split
          · rename_i f hf
            exact ih _ (hexc _ x f h hmem hf)
          all_goals exact h
      · simp only [hmem, Bool.false_eq_true, if_false]
        rcases hg : getMu e x with m | t | u | _
        · have h1 := hmu e x m h hlt hg
          simp only
          split
          · exact ih _ h1
          · split
            · rename_i f hf
              exact ih _ (hexc _ x f h1 (by simp [SMap.mem, SMap.find?_insert]) hf)
            all_goals exact h1
        all_goals exact h
    · exact ih _ h

/-! ## C20 -/

theorem insert_length_le {κ ν : Type} [LinearOrder κ] (m : SMap κ ν) (k : κ) (v : ν) :
    (m.insert k v).length ≤ m.length + 1 := by
  induction m with
  | nil => simp [SMap.insert]
  | cons e t ih =>
    obtain ⟨a, b⟩ := e
    unfold SMap.insert
    split
    · simp
    · split
      · simp
      · simp only [List.length_cons]; omega

/-- The cached energies: both maps are maps, and factors are only cached for cached coefficients. -/
structure CacheInv (e : Element K) : Prop where
  muSorted : SMap.Sorted e.muCache
  excSorted : SMap.Sorted e.excCache
  sub : ∀ x, e.excCache.mem x = true → e.muCache.mem x = true

theorem cacheInv_mu {e : Element K} (h : CacheInv e) (x : K) (m : Mu K) :
    CacheInv { e with muCache := e.muCache.insert x m } := by
  refine ⟨SMap.insert_sorted h.muSorted _ _, h.excSorted, ?_⟩
  intro y hy
  have := h.sub y hy
  simp only [SMap.mem, SMap.find?_insert] at this ⊢
  split
  · rfl
  · exact this

theorem cacheInv_exc {e : Element K} (h : CacheInv e) (x : K) (f : SMap Str (Factor K))
    (hx : e.muCache.mem x = true) : CacheInv { e with excCache := e.excCache.insert x f } := by
  refine ⟨h.muSorted, SMap.insert_sorted h.excSorted _ _, ?_⟩
  intro y hy
  simp only [SMap.mem, SMap.find?_insert] at hy
  by_cases hxy : x = y
  · subst hxy; exact hx
  · rw [if_neg hxy] at hy; exact h.sub y hy

theorem cacheInv_empty (e : Element K) : CacheInv e.clearCache :=
  ⟨SMap.sorted_nil, SMap.sorted_nil, by intro x hx; simp [clearCache, SMap.mem] at hx⟩

theorem cacheInv_congr {e f : Element K} (h : CacheInv e) (h1 : f.muCache = e.muCache)
    (h2 : f.excCache = e.excCache) : CacheInv f :=
  ⟨h1 ▸ h.muSorted, h2 ▸ h.excSorted, by rw [h1, h2]; exact h.sub⟩

theorem mem_keys {κ ν : Type} [LinearOrder κ] {m : SMap κ ν} {k : κ} (h : m.mem k = true) :
    k ∈ m.map Prod.fst := by
  unfold SMap.mem at h
  obtain ⟨v, hv⟩ := Option.isSome_iff_exists.1 h
  exact List.mem_map.2 ⟨(k, v), SMap.mem_of_find? hv, rfl⟩

theorem keys_mem {κ ν : Type} [LinearOrder κ] {m : SMap κ ν} {k : κ} (h : k ∈ m.map Prod.fst) :
    m.mem k = true := by
  by_contra hno
  have hn : m.find? k = none := by
    cases hf : m.find? k with
    | none => rfl
    | some v => simp [SMap.mem, hf] at hno
  obtain ⟨e, he, rfl⟩ := List.mem_map.1 h
  exact (SMap.find?_eq_none_iff m e.1).1 hn e he rfl

theorem cacheInv_le {e : Element K} (h : CacheInv e) : e.excCache.length ≤ e.muCache.length := by
  have hsub : (e.excCache.map Prod.fst) ⊆ (e.muCache.map Prod.fst) := by
    intro k hk
    exact mem_keys (h.sub k (keys_mem hk))
  have hnd := SMap.keys_nodup h.excSorted
  have := (List.subperm_of_subset hnd hsub).length_le
  simpa using this

theorem fillLoop_length (e : Element K) (l : List K) :
    (fillLoop e l).2.muCache.length ≤ e.muCache.length + l.length := by
  induction l generalizing e with
  | nil => simp [fillLoop]
  | cons x r ih =>
    unfold fillLoop
    split
    · rename_i m hm
      have hle := insert_length_le e.muCache x m
      simp only [List.length_cons]
      split
      · rename_i f hf
        refine le_trans (ih _) ?_
        simp only; omega
      all_goals (simp only; omega)
    all_goals (simp only [List.length_cons]; omega)

/-- The quantities an operation other than the cache ones may change in the cache: nothing, or it empties it. -/
theorem step_caches (e : Element K) (op : Op K)
    (hop : (∀ l, op ≠ .fillCache l) ∧ (∀ l, op ≠ .updateCache l)) :
    ((e.step op).2.muCache = e.muCache ∧ (e.step op).2.excCache = e.excCache) ∨
    ((e.step op).2.muCache = [] ∧ (e.step op).2.excCache = []) := by
  cases op with
  | setAtomicNumber z => left; simp only [step, setAtomicNumber]; split <;> exact ⟨rfl, rfl⟩
  | setBindingEnergies b => left; exact ⟨rfl, rfl⟩
  | setMass en ph co cm pa =>
    simp only [step, setMassAttenuationCoefficients]
    repeat' split
    all_goals first | exact Or.inl ⟨rfl, rfl⟩ | exact Or.inr ⟨rfl, rfl⟩
  | setPartial s en v =>
    simp only [step, setPartial]
    repeat' split
    all_goals first | exact Or.inl ⟨rfl, rfl⟩ | exact Or.inr ⟨rfl, rfl⟩
  | setRadiative s l v =>
    simp only [step, setRadiative]
    split <;> exact Or.inl ⟨rfl, rfl⟩
  | setRadiativeMap s m =>
    simp only [step, setRadiativeMap]
    repeat' split
    all_goals first | exact Or.inl ⟨rfl, rfl⟩ | exact Or.inr ⟨rfl, rfl⟩
  | setNonradiative s l v =>
    simp only [step, setNonradiative]
    repeat' split
    all_goals first | exact Or.inl ⟨rfl, rfl⟩ | exact Or.inr ⟨rfl, rfl⟩
  | setNonradiativeMap s m =>
    simp only [step, setNonradiativeMap, setNonradiative]
    repeat' split
    all_goals first | exact Or.inl ⟨rfl, rfl⟩ | exact Or.inr ⟨rfl, rfl⟩
  | setShellConstants s c =>
    simp only [step, setShellConstants]
    repeat' split
    all_goals first | exact Or.inl ⟨rfl, rfl⟩ | exact Or.inr ⟨rfl, rfl⟩
  | setCascadeCacheEnabled f =>
    left
    simp only [step, setCascadeCacheEnabled, fillCascadeCache]
    repeat' split
    all_goals exact ⟨rfl, rfl⟩
  | fillCascadeCache =>
    left
    simp only [step, fillCascadeCache]
    split <;> exact ⟨rfl, rfl⟩
  | emptyCascadeCache => left; exact ⟨rfl, rfl⟩
  | setCacheEnabled f => left; exact ⟨rfl, rfl⟩
  | clearCache => right; exact ⟨rfl, rfl⟩
  | fillCache l => exact absurd rfl (hop.1 l)
  | updateCache l => exact absurd rfl (hop.2 l)

theorem c20_step (e : Element K) (h : CacheInv e ∧ e.muCache.length ≤ cacheMaximumSize) (op : Op K) :
    CacheInv (e.step op).2 ∧ (e.step op).2.muCache.length ≤ cacheMaximumSize := by
  by_cases hop : (∀ l, op ≠ .fillCache l) ∧ (∀ l, op ≠ .updateCache l)
  · rcases step_caches e op hop with ⟨h1, h2⟩ | ⟨h1, h2⟩
    · exact ⟨cacheInv_congr h.1 h1 h2, by rw [h1]; exact h.2⟩
    · refine ⟨cacheInv_congr (cacheInv_empty e) h1 h2, by rw [h1]; simp⟩
  · have hc : (∃ l, op = .fillCache l) ∨ (∃ l, op = .updateCache l) := by
      by_contra hno
      push Not at hno
      exact hop ⟨fun l => hno.1 l, fun l => hno.2 l⟩
    rcases hc with ⟨l, rfl⟩ | ⟨l, rfl⟩
    · simp only [step, fillCache]
      constructor
      · have key : CacheInv (fillLoop { e.clearCache with cacheOn := false }
            (l.take cacheMaximumSize)).2 :=
          fillLoop_induct CacheInv (fun e x m hp _ => cacheInv_mu hp x m)
            (fun e x f hp hm _ => cacheInv_exc hp x f hm) _ _
            (cacheInv_congr (cacheInv_empty e) rfl rfl)
        exact cacheInv_congr key rfl rfl
      · have := fillLoop_length { e.clearCache with cacheOn := false } (l.take cacheMaximumSize)
        refine le_trans this ?_
        simp only [clearCache, List.length_nil, List.length_take]
        omega
    · simp only [step, updateCache]
      have key : CacheInv (updateLoop { e with cacheOn := false } l).2 ∧
          (updateLoop { e with cacheOn := false } l).2.muCache.length ≤ cacheMaximumSize := by
        apply updateLoop_induct (fun e => CacheInv e ∧ e.muCache.length ≤ cacheMaximumSize)
        · intro e x m hp hlt _
          refine ⟨cacheInv_mu hp.1 x m, ?_⟩
          have := insert_length_le e.muCache x m
          simp only; omega
        · intro e x f hp hm _
          exact ⟨cacheInv_exc hp.1 x f hm, hp.2⟩
        · exact ⟨cacheInv_congr h.1 rfl rfl, h.2⟩
      exact ⟨cacheInv_congr key.1 rfl rfl, key.2⟩

/-- **C20** For every history of calls on a new element, at most 10000 energies are held in either of the two
caches. -/
theorem C20_bounded {z : Int} {e0 : Element K} (h0 : mk? z = .ok e0) (ops : List (Op K)) :
    (run e0 ops).muCache.length ≤ 10000 ∧ (run e0 ops).excCache.length ≤ 10000 := by
  have hinit : CacheInv e0 ∧ e0.muCache.length ≤ cacheMaximumSize := by
    unfold mk? at h0
    split at h0
    · cases h0
    · cases h0
      exact ⟨⟨SMap.sorted_nil, SMap.sorted_nil, by intro x hx; simp [SMap.mem] at hx⟩, by simp⟩
  have key : ∀ e : Element K, CacheInv e ∧ e.muCache.length ≤ cacheMaximumSize →
      CacheInv (run e ops) ∧ (run e ops).muCache.length ≤ cacheMaximumSize := by
    induction ops with
    | nil => intro e h; exact h
    | cons op r ih => intro e h; exact ih _ (c20_step e h op)
  obtain ⟨h1, h2⟩ := key e0 hinit
  have h3 := cacheInv_le h1
  have : cacheMaximumSize = 10000 := rfl
  constructor <;> omega

/-- **C20** fillCache and updateCache leave the enabled flag as it was, whether they succeed or not. -/
theorem C20_flag_restored (e : Element K) (l : List K) :
    (e.fillCache l).2.cacheOn = e.cacheOn ∧ (e.updateCache l).2.cacheOn = e.cacheOn := ⟨rfl, rfl⟩

/-! ## C52 -/

/-- What a table of mass attenuation coefficients must satisfy. -/
def TableConsistent (energies : List K) (t : MuTable K) : Prop :=
  t.coherent.length = energies.length ∧ t.compton.length = energies.length ∧
  t.pair.length = energies.length ∧ t.photoelectric.length = energies.length ∧
  t.total.length = energies.length ∧ energies.Pairwise (· ≤ ·) ∧
  ∀ i, i < energies.length →
    t.total.getD i 0 = t.coherent.getD i 0 + t.compton.getD i 0 + t.pair.getD i 0 + t.photoelectric.getD i 0

theorem ascending_pairwise (l : List K) (h : ascending l = true) : l.Pairwise (· ≤ ·) := by
  induction l with
  | nil => exact List.Pairwise.nil
  | cons a r ih =>
    cases r with
    | nil => simp
    | cons b r =>
      unfold ascending at h
      split at h
      · cases h
      · rename_i hab
        have hr := ih h
        rw [List.pairwise_cons]
        refine ⟨?_, hr⟩
        intro c hc
        rcases List.mem_cons.1 hc with rfl | hc
        · exact not_lt.1 hab
        · exact le_trans (not_lt.1 hab) ((List.pairwise_cons.1 hr).1 c hc)

theorem pairwise_ascending (l : List K) (h : l.Pairwise (· ≤ ·)) : ascending l = true := by
  induction l with
  | nil => rfl
  | cons a r ih =>
    cases r with
    | nil => rfl
    | cons b r =>
      unfold ascending
      rw [List.pairwise_cons] at h
      rw [if_neg (not_lt.2 (h.1 b (by simp)))]
      exact ih h.2

/-- **C52** A rejected call leaves the element unchanged; an accepted one stores the given tables. -/
theorem C52_all_or_nothing (e : Element K) (en ph co cm pa : List K) :
    let r := e.setMassAttenuationCoefficients en ph co cm pa
    (r.1 ≠ .ok () → r.2 = e) ∧
    (r.1 = .ok () ↔ ph.length = en.length ∧ cm.length = en.length ∧ co.length = en.length ∧
      (pa = [] ∨ pa.length = en.length) ∧ en.Pairwise (· ≤ ·)) ∧
    (r.1 = .ok () → ∃ t, r.2.mu = some t ∧ r.2.muEnergy = en ∧ t.photoelectric = ph ∧ t.coherent = co ∧
      t.compton = cm ∧ (pa ≠ [] → t.pair = pa) ∧ (pa = [] → ∀ v ∈ t.pair, v = 0) ∧ TableConsistent en t) := by
  intro r
  have hpa : pa.length > 0 ↔ pa ≠ [] := List.length_pos_iff
  by_cases h1 : ph.length = en.length
  case neg => simp [r, setMassAttenuationCoefficients, h1]
  by_cases h2 : cm.length = en.length
  case neg => simp [r, setMassAttenuationCoefficients, h1, h2]
  by_cases h3 : co.length = en.length
  case neg => simp [r, setMassAttenuationCoefficients, h1, h2, h3]
  by_cases h4 : pa.length > 0 ∧ pa.length ≠ en.length
  case pos =>
    have : ¬ (pa = [] ∨ pa.length = en.length) := by
      rintro (h | h)
      · rw [h] at h4; simp at h4
      · exact h4.2 h
    simp only [r, setMassAttenuationCoefficients, h1, h2, h3, ne_eq, not_true_eq_false, if_false]
    rw [if_pos h4]
    simp [this]
  have h4' : pa = [] ∨ pa.length = en.length := by
    by_contra hno
    push Not at hno
    exact h4 ⟨hpa.2 hno.1, hno.2⟩
  by_cases h5 : ascending en = false
  case pos =>
    have : ¬ en.Pairwise (· ≤ ·) := fun hp => by
      rw [pairwise_ascending en hp] at h5; cases h5
    simp only [r, setMassAttenuationCoefficients, h1, h2, h3, ne_eq, not_true_eq_false, if_false]
    rw [if_neg h4, if_pos h5]
    simp [this]
  have hasc : en.Pairwise (· ≤ ·) := ascending_pairwise en (by simpa using h5)
  have hr : r = (.ok (), { e.clearCache with
      muEnergy := en,
      mu := some { coherent := co, compton := cm,
                   pair := if pa.length > 0 then pa else List.replicate en.length 0, photoelectric := ph,
                   total := List.zipWith (· + ·) co (List.zipWith (· + ·)
                     (List.zipWith (· + ·) cm (if pa.length > 0 then pa else List.replicate en.length 0)) ph) } }) := by
    simp only [r, setMassAttenuationCoefficients, h1, h2, h3, ne_eq, not_true_eq_false, if_false]
    rw [if_neg h4, if_neg h5]
  have hp : (if pa.length > 0 then pa else List.replicate en.length (0 : K)).length = en.length := by
    split
    · rename_i hh
      rcases h4' with h | h
      · rw [h] at hh; simp at hh
      · exact h
    · simp
  rw [hr]
  refine ⟨fun h => absurd rfl h, ⟨fun _ => ⟨h1, h2, h3, h4', hasc⟩, fun _ => rfl⟩, fun _ => ?_⟩
  refine ⟨_, rfl, rfl, rfl, rfl, rfl, ?_, ?_, ?_⟩
  · intro hne
    simp only
    rw [if_pos (hpa.2 hne)]
  · intro he v hv
    simp only [he, List.length_nil, gt_iff_lt, lt_irrefl, if_false] at hv
    exact (List.mem_replicate.1 hv).2
  · refine ⟨h3, h2, hp, h1, ?_, hasc, ?_⟩
    · simp only [List.length_zipWith, hp, h1, h2, h3, min_self]
    · intro i hi
      simp only [List.getD_eq_getElem?_getD]
      generalize hP : (if pa.length > 0 then pa else List.replicate en.length (0 : K)) = P at hp ⊢
      have e1 : i < co.length := by omega
      have e2 : i < cm.length := by omega
      have e3 : i < P.length := by omega
      have e4 : i < ph.length := by omega
      simp [e1, e2, e3, e4]
      ring

example : ((mk? 26 : Outcome (Element ℚ)).bind (fun e =>
    (e.setMassAttenuationCoefficients [1, 2] [10, 5] [1, 1] [2, 2] []).1)) = .ok () := by decide +kernel

theorem step_table (e : Element K) (op : Op K)
    (hop : ∀ en ph co cm pa, op ≠ .setMass en ph co cm pa) :
    (e.step op).2.mu = e.mu ∧ (e.step op).2.muEnergy = e.muEnergy := by
  cases op with
  | setAtomicNumber z => simp only [step, setAtomicNumber]; split <;> exact ⟨rfl, rfl⟩
  | setBindingEnergies b => exact ⟨rfl, rfl⟩
  | setMass en ph co cm pa => exact absurd rfl (hop en ph co cm pa)
  | setPartial s en v =>
    simp only [step, setPartial]
    repeat' split
    all_goals exact ⟨rfl, rfl⟩
  | setRadiative s l v =>
    simp only [step, setRadiative]
    split <;> exact ⟨rfl, rfl⟩
  | setRadiativeMap s m =>
    simp only [step, setRadiativeMap]
    repeat' split
    all_goals exact ⟨rfl, rfl⟩
  | setNonradiative s l v =>
    simp only [step, setNonradiative]
    repeat' split
    all_goals exact ⟨rfl, rfl⟩
  | setNonradiativeMap s m =>
    simp only [step, setNonradiativeMap, setNonradiative]
    repeat' split
    all_goals exact ⟨rfl, rfl⟩
  | setShellConstants s c =>
    simp only [step, setShellConstants]
    repeat' split
    all_goals exact ⟨rfl, rfl⟩
  | setCascadeCacheEnabled f =>
    simp only [step, setCascadeCacheEnabled, fillCascadeCache]
    repeat' split
    all_goals exact ⟨rfl, rfl⟩
  | fillCascadeCache =>
    simp only [step, fillCascadeCache]
    split <;> exact ⟨rfl, rfl⟩
  | emptyCascadeCache => exact ⟨rfl, rfl⟩
  | setCacheEnabled f => exact ⟨rfl, rfl⟩
  | clearCache => exact ⟨rfl, rfl⟩
  | fillCache l =>
    simp only [step, fillCache]
    exact fillLoop_induct (fun f => f.mu = e.mu ∧ f.muEnergy = e.muEnergy) (fun _ _ _ h _ => h)
      (fun _ _ _ h _ _ => h) _ _ ⟨rfl, rfl⟩
  | updateCache l =>
    simp only [step, updateCache]
    exact updateLoop_induct (fun f => f.mu = e.mu ∧ f.muEnergy = e.muEnergy) (fun _ _ _ h _ _ => h)
      (fun _ _ _ h _ _ => h) _ _ ⟨rfl, rfl⟩

/-- **C52** After any history of calls on a new element the stored table, if there is one, is consistent: all the
columns have the length of the energies, these are in ascending order, and the total is the sum of the four
processes at each energy. -/
theorem C52_history {z : Int} {e0 : Element K} (h0 : mk? z = .ok e0) (ops : List (Op K)) :
    ∀ t, (run e0 ops).mu = some t → TableConsistent (run e0 ops).muEnergy t := by
  have hinit : ∀ t, e0.mu = some t → TableConsistent e0.muEnergy t := by
    unfold mk? at h0
    split at h0
    · cases h0
    · cases h0; intro t ht; cases ht
  clear h0
  induction ops generalizing e0 with
  | nil => exact hinit
  | cons op r ih =>
    apply ih (e0 := (e0.step op).2)
    by_cases hop : ∀ en ph co cm pa, op ≠ .setMass en ph co cm pa
    · obtain ⟨h1, h2⟩ := step_table e0 op hop
      rw [h1, h2]; exact hinit
    · push Not at hop
      obtain ⟨en, ph, co, cm, pa, rfl⟩ := hop
      obtain ⟨a, b, c⟩ := C52_all_or_nothing e0 en ph co cm pa
      by_cases hok : (e0.setMassAttenuationCoefficients en ph co cm pa).1 = .ok ()
      · obtain ⟨t, g1, g2, _, _, _, _, _, g⟩ := c hok
        intro t' ht'
        simp only [step] at ht' ⊢
        rw [g1] at ht'
        cases ht'
        rw [g2]; exact g
      · simp only [step]
        rw [a hok]; exact hinit

/-! ## C53 -/

/-- **C53** The energy of a transition label `inner ++ outer` (one or two characters for the inner shell and two for
the outer one) is the difference of the binding energies, 3 eV replacing an unset or null outer one. -/
theorem C53_transition_energy (e : Element K) (inner outer : Str)
    (hi : inner.length = 1 ∨ inner.length = 2) (ho : outer.length = 2) (ei : K)
    (hei : e.binding.find? inner = some ei) (hpos : 0 < ei) :
    (∀ eo, e.binding.find? outer = some eo → 0 < eo →
      e.getTransitionEnergy (inner ++ outer) = .ok (ei - eo)) ∧
    ((e.binding.find? outer = none ∨ e.binding.find? outer = some 0) →
      e.getTransitionEnergy (inner ++ outer) = .ok (ei - 3 / 1000)) := by
  have hsplit : splitTransition (inner ++ outer) = some (inner, outer) := by
    unfold splitTransition
    rcases hi with hi | hi
    · rw [if_neg (by simp [hi, ho]), if_pos (by simp [hi, ho])]
      have a : List.take 1 (inner ++ outer) = inner := by rw [← hi]; simp
      have b : List.drop 1 (inner ++ outer) = outer := by rw [← hi]; simp
      rw [a, b]
    · rw [if_pos (by simp [hi, ho])]
      have a : List.take 2 (inner ++ outer) = inner := by rw [← hi]; simp
      have b : List.drop 2 (inner ++ outer) = outer := by rw [← hi]; simp
      rw [a, b]
  unfold getTransitionEnergy
  simp only [hsplit, innerEnergy, hei, not_le.2 hpos, if_false, Outcome.ok_bind, outerEnergy, at0]
  constructor
  · intro eo heo hpos'
    simp [heo, not_le.2 hpos']
  · rintro (h | h) <;> simp [h]

/-- **C53** Labels of any other length, and vacancies in a shell without positive binding energy, are rejected. -/
theorem C53_rejected (e : Element K) (t : Str) :
    ((t.length ≠ 3 ∧ t.length ≠ 4) → e.getTransitionEnergy t = .throw .domainError) ∧
    (∀ inner outer, t = inner ++ outer → (inner.length = 1 ∨ inner.length = 2) → outer.length = 2 →
      (∀ v, e.binding.find? inner = some v → v ≤ 0) → e.getTransitionEnergy t = .throw .domainError) := by
  constructor
  · rintro ⟨h3, h4⟩
    simp [getTransitionEnergy, splitTransition, h3, h4]
  · rintro inner outer rfl hi ho hno
    have hsplit : splitTransition (inner ++ outer) = some (inner, outer) := by
      unfold splitTransition
      rcases hi with hi | hi
      · rw [if_neg (by simp [hi, ho]), if_pos (by simp [hi, ho])]
        have a : List.take 1 (inner ++ outer) = inner := by rw [← hi]; simp
        have b : List.drop 1 (inner ++ outer) = outer := by rw [← hi]; simp
        rw [a, b]
      · rw [if_pos (by simp [hi, ho])]
        have a : List.take 2 (inner ++ outer) = inner := by rw [← hi]; simp
        have b : List.drop 2 (inner ++ outer) = outer := by rw [← hi]; simp
        rw [a, b]
    unfold getTransitionEnergy
    simp only [hsplit, innerEnergy]
    cases hb : e.binding.find? inner with
    | none => simp
    | some v => simp [hno v hb]

/-- **C53** The two routines giving the energy of a line agree: the one used for the emitted lines (which takes the
shell from the loop) and the public one (which takes it from the label). -/
theorem C53_line_energy_agrees (e : Element K) (k outer : Str) (hk : k.length = 1 ∨ k.length = 2)
    (ho : outer.length = 2) : lineEnergy e k (k ++ outer) = e.getTransitionEnergy (k ++ outer) := by
  have hsplit : splitTransition (k ++ outer) = some (k, outer) := by
    unfold splitTransition
    rcases hk with hi | hi
    · rw [if_neg (by simp [hi, ho]), if_pos (by simp [hi, ho])]
      have a : List.take 1 (k ++ outer) = k := by rw [← hi]; simp
      have b : List.drop 1 (k ++ outer) = outer := by rw [← hi]; simp
      rw [a, b]
    · rw [if_pos (by simp [hi, ho])]
      have a : List.take 2 (k ++ outer) = k := by rw [← hi]; simp
      have b : List.drop 2 (k ++ outer) = outer := by rw [← hi]; simp
      rw [a, b]
  unfold lineEnergy getTransitionEnergy
  simp only [hsplit]
  have hdrop : (k ++ outer).drop ((k ++ outer).length - 2) = outer := by
    have : (k ++ outer).length - 2 = k.length := by simp [ho]
    rw [this]; simp
  rw [hdrop]
  have hlen : ¬ (k ++ outer).length < 2 := by simp [ho]
  simp only [hlen, if_false]

theorem emittedOfShell_keys {e : Element K} {s : Shell K} {ratios : List (Str × K)} {acc out : SMap Str K}
    (h : emittedOfShell e s ratios acc = .ok out) {t : Str} {v : K} (hv : out.find? t = some v) :
    acc.find? t = some v ∨ ((∃ r, (t, r) ∈ ratios) ∧ e.getTransitionEnergy t = .ok v ∧
      ∃ w, s.getFluorescenceYield = .ok w ∧ 0 < w) := by
  induction ratios generalizing acc with
  | nil => simp only [emittedOfShell, Outcome.ok.injEq] at h; rw [h]; exact Or.inl hv
  | cons a r ih =>
    obtain ⟨t', r'⟩ := a
    unfold emittedOfShell at h
    rw [Outcome.bind_eq_ok] at h
    obtain ⟨w, hw, h⟩ := h
    split at h
    · rename_i hpos
      rw [Outcome.bind_eq_ok] at h
      obtain ⟨en, hen, h⟩ := h
      rcases ih h with h' | ⟨⟨r2, h1⟩, h2, h3⟩
      · rw [SMap.find?_insert] at h'
        split at h'
        · rename_i ht
          subst ht
          cases h'
          exact Or.inr ⟨⟨r', by simp⟩, hen, w, hw, hpos⟩
        · exact Or.inl h'
      · exact Or.inr ⟨⟨r2, by simp [h1]⟩, h2, h3⟩
    · rcases ih h with h' | ⟨⟨r2, h1⟩, h2, h3⟩
      · exact Or.inl h'
      · exact Or.inr ⟨⟨r2, by simp [h1]⟩, h2, h3⟩

/-- **C53** Every line reported by getEmittedXRayLines belongs to a defined shell whose binding energy is below the
given energy, with positive fluorescence yield; it is one of the radiative transitions of that shell and its
energy is the transition energy. -/
theorem C53_emitted_excited (e : Element K) (x : K) (out : SMap Str K)
    (h : e.getEmittedXRayLines x = .ok out) (t : Str) (v : K) (hv : out.find? t = some v) :
    ∃ k s b, e.shells.find? k = some s ∧ e.binding.find? k = some b ∧ b < x ∧
      (∃ r, (t, r) ∈ s.fluorescence) ∧ e.getTransitionEnergy t = .ok v ∧
      ∃ w, s.getFluorescenceYield = .ok w ∧ 0 < w := by
  have key : ∀ ks acc, emittedLoop e x ks acc = .ok out → acc.find? t = some v ∨
      ∃ k s b, e.shells.find? k = some s ∧ e.binding.find? k = some b ∧ b < x ∧
      (∃ r, (t, r) ∈ s.fluorescence) ∧ e.getTransitionEnergy t = .ok v ∧
      ∃ w, s.getFluorescenceYield = .ok w ∧ 0 < w := by
    intro ks
    induction ks with
    | nil => intro acc h; simp only [emittedLoop, Outcome.ok.injEq] at h; rw [h]; exact Or.inl hv
    | cons k r ih =>
      intro acc h
      unfold emittedLoop at h
      cases hs : e.shells.find? k with
      | none => rw [hs] at h; simp only [Outcome.ok.injEq] at h; rw [h]; exact Or.inl hv
      | some s =>
        rw [hs] at h
        simp only at h
        cases hb : e.binding.find? k with
        | none => rw [hb] at h; cases h
        | some b =>
          rw [hb] at h
          simp only at h
          split at h
          · exact ih _ h
          · rename_i hx
            rw [Outcome.bind_eq_ok] at h
            obtain ⟨acc', h1, h2⟩ := h
            rcases ih _ h2 with h3 | h3
            · rcases emittedOfShell_keys h1 h3 with h4 | h4
              · exact Or.inl h4
              · exact Or.inr ⟨k, s, b, hs, hb, not_le.1 hx, h4⟩
            · exact Or.inr h3
  rcases key _ _ h with h' | h'
  · simp at h'
  · exact h'

/-- **C98** (positivity, partial) Missing: without the hypothesis that the outer shell is less bound than the inner
one (by more than nothing, or than 3 eV when it is not defined) the energy can be zero or negative. -/
theorem C98_positive_partial (e : Element K) (inner outer : Str) (hi : inner.length = 1 ∨ inner.length = 2)
    (ho : outer.length = 2) (ei : K) (hei : e.binding.find? inner = some ei) (h3 : 3 / 1000 < ei)
    (hlt : ∀ eo, e.binding.find? outer = some eo → 0 ≤ eo ∧ eo < ei) :
    ∃ v, e.getTransitionEnergy (inner ++ outer) = .ok v ∧ 0 < v := by
  have hpos : (0 : K) < ei := lt_trans (by norm_num) h3
  obtain ⟨h1, h2⟩ := C53_transition_energy e inner outer hi ho ei hei hpos
  cases hb : e.binding.find? outer with
  | none => exact ⟨_, h2 (Or.inl hb), by linarith⟩
  | some eo =>
    obtain ⟨g1, g2⟩ := hlt eo hb
    rcases lt_or_eq_of_le g1 with g | g
    · exact ⟨_, h1 eo hb g, by linarith⟩
    · subst g; exact ⟨_, h2 (Or.inr hb), by linarith⟩

end general

/-! ## C22, API level -/

/-- **C22** (API) For an element with a table of positive coefficients at well separated energies, and without
cached values, the coefficients returned by getMassAttenuationCoefficients at a tabulated energy are the
tabulated ones, and between two tabulated energies they are between the tabulated values. -/
theorem C22_api {e : Element ℝ} {t : MuTable ℝ} (hmu : e.mu = some t) (hE : GoodTable e.muEnergy)
    (hc : TableConsistent e.muEnergy t) (hoff : e.cacheOn = false) (x : ℝ) (m : Mu ℝ) (hm : e.getMu x = .ok m)
    (k : Nat) (hk : k < e.muEnergy.length) :
    let at' (l : List ℝ) := l.getD k 0
    let next (l : List ℝ) := l.getD (k + 1) 0
    (x = at' e.muEnergy →
      ((∀ y ∈ t.coherent, 0 < y) → m.coherent = at' t.coherent) ∧
      ((∀ y ∈ t.compton, 0 < y) → m.compton = at' t.compton) ∧
      ((∀ y ∈ t.pair, 0 < y) → m.pair = at' t.pair)) ∧
    (k + 1 < e.muEnergy.length → at' e.muEnergy < x → x < next e.muEnergy →
      ((∀ y ∈ t.coherent, 0 < y) → min (at' t.coherent) (next t.coherent) ≤ m.coherent ∧
        m.coherent ≤ max (at' t.coherent) (next t.coherent)) ∧
      ((∀ y ∈ t.compton, 0 < y) → min (at' t.compton) (next t.compton) ≤ m.compton ∧
        m.compton ≤ max (at' t.compton) (next t.compton)) ∧
      ((∀ y ∈ t.pair, 0 < y) → min (at' t.pair) (next t.pair) ≤ m.pair ∧
        m.pair ≤ max (at' t.pair) (next t.pair))) := by
  intro at' next
  obtain ⟨c1, c2, c3, _⟩ := hc
  have hlen : ¬ e.muEnergy.length < 1 := by have := hE.1; omega
  simp only [getMu, hlen, if_false, hoff, Bool.false_eq_true] at hm
  unfold computeMu at hm
  rw [Outcome.bind_eq_ok] at hm
  obtain ⟨parts, _, hm⟩ := hm
  rw [Outcome.bind_eq_ok] at hm
  obtain ⟨b, hb, hm⟩ := hm
  simp only [hmu, Option.getD_some] at hm
  rw [Outcome.bind_eq_ok] at hm
  obtain ⟨coh, hcoh, hm⟩ := hm
  rw [Outcome.bind_eq_ok] at hm
  obtain ⟨com, hcom, hm⟩ := hm
  rw [Outcome.bind_eq_ok] at hm
  obtain ⟨pai, hpai, hm⟩ := hm
  simp only [Outcome.pure_eq, Outcome.ok.injEq] at hm
  have hmc : m.coherent = coh := by rw [← hm]
  have hmo : m.compton = com := by rw [← hm]
  have hmp : m.pair = pai := by rw [← hm]
  have node : ∀ (table : List ℝ) (v : ℝ), table.length = e.muEnergy.length → processValue b x table = .ok v →
      x = at' e.muEnergy → (∀ y ∈ table, 0 < y) → v = at' table := by
    intro table v hl hv hx hpos
    have := (C22_process_interpolates hE hl hpos).1 k hk (by omega)
    have hx' : e.muEnergy[k] = x := by rw [hx]; simp [at', hk]
    rw [hx'] at this
    simp only [hb, Outcome.ok_bind, hv, Outcome.ok.injEq] at this
    rw [this]
    have : k < table.length := by omega
    simp [at', this]
  have btw : ∀ (table : List ℝ) (v : ℝ), table.length = e.muEnergy.length → processValue b x table = .ok v →
      k + 1 < e.muEnergy.length → at' e.muEnergy < x → x < next e.muEnergy → (∀ y ∈ table, 0 < y) →
      min (at' table) (next table) ≤ v ∧ v ≤ max (at' table) (next table) := by
    intro table v hl hv hk1 hx1 hx2 hpos
    have h1 : e.muEnergy[k] < x := by simpa [at', hk] using hx1
    have h2 : x < e.muEnergy[k + 1] := by simpa [next, hk1] using hx2
    obtain ⟨y, hy, hy'⟩ := (C22_process_interpolates hE hl hpos).2 k hk1 (by omega) x h1 h2
    simp only [hb, Outcome.ok_bind, hv, Outcome.ok.injEq] at hy
    rw [hy]
    have g1 : k < table.length := by omega
    have g2 : k + 1 < table.length := by omega
    simpa [at', next, g1, g2] using hy'
  rw [hmc, hmo, hmp]
  exact ⟨fun hx => ⟨node _ _ c1 hcoh hx, node _ _ c2 hcom hx, node _ _ c3 hpai hx⟩,
    fun h1 h2 h3 => ⟨btw _ _ c1 hcoh h1 h2 h3, btw _ _ c2 hcom h1 h2 h3, btw _ _ c3 hpai h1 h2 h3⟩⟩

/-! ## C21 -/

section vacancies

variable {K : Type} [Field K] [LinearOrder K] [IsStrictOrderedRing K] [Trans K]

/-- All that is used of the exponential function. -/
def ExpNonneg (K : Type) [Field K] [LinearOrder K] [Trans K] : Prop := ∀ x : K, 0 ≤ Trans.exp x

theorem vgetI_mem {α : Type} {v : List α} {i : Int} {a : α} (h : vgetI v i = .ok a) : a ∈ v := by
  unfold vgetI vget at h
  split at h
  · cases h
  · split at h
    · rename_i b hb
      cases h
      exact List.mem_of_getElem? hb
    · cases h

theorem partialValue_nonneg (hexp : ExpNonneg K) {other : Bool} {E V : List K} {x y : K} (hV : ∀ v ∈ V, 0 ≤ v)
    (h : partialValue other E V x = .ok y) : 0 ≤ y := by
  unfold partialValue at h
  rw [Outcome.bind_eq_ok] at h
  obtain ⟨⟨i1, i2, x0, x1⟩, _, h⟩ := h
  simp only at h
  have hguard : ∀ a b c d f : K, 0 ≤ logLogGuarded a b c d f := by
    intro a b c d f
    unfold logLogGuarded logLog
    split
    · exact hexp _
    · split
      · exact hexp _
      · exact le_refl _
  split at h
  · cases other with
    | true => simp only [if_true] at h; exact hV _ (vgetI_mem h)
    | false =>
      simp only [Bool.false_eq_true, if_false] at h
      rw [Outcome.bind_eq_ok] at h
      obtain ⟨y0, hy0, h⟩ := h
      split at h
      · cases h; rename_i hp; exact le_of_lt hp
      · rw [Outcome.bind_eq_ok] at h
        obtain ⟨y1, hy1, h⟩ := h
        split at h
        · cases h; rename_i hp; exact le_of_lt hp.2
        · rw [Outcome.bind_eq_ok] at h
          obtain ⟨w, _, h⟩ := h
          rw [Outcome.bind_eq_ok] at h
          obtain ⟨a, _, h⟩ := h
          rw [Outcome.bind_eq_ok] at h
          obtain ⟨b, _, h⟩ := h
          rw [Outcome.bind_eq_ok] at h
          obtain ⟨c, _, h⟩ := h
          rw [Outcome.bind_eq_ok] at h
          obtain ⟨d, _, h⟩ := h
          cases h
          unfold logLog
          exact hexp _
  · rw [Outcome.bind_eq_ok] at h
    obtain ⟨y0, hy0, h⟩ := h
    rw [Outcome.bind_eq_ok] at h
    obtain ⟨y1, hy1, h⟩ := h
    cases other with
    | true => simp only [if_true] at h; cases h; exact hguard _ _ _ _ _
    | false =>
      simp only [Bool.false_eq_true, if_false] at h
      split at h
      · cases h
        unfold logLog
        exact hexp _
      · rw [Outcome.bind_eq_ok] at h
        obtain ⟨w, _, h⟩ := h
        rw [Outcome.bind_eq_ok] at h
        obtain ⟨a, _, h⟩ := h
        rw [Outcome.bind_eq_ok] at h
        obtain ⟨b, _, h⟩ := h
        rw [Outcome.bind_eq_ok] at h
        obtain ⟨c, _, h⟩ := h
        rw [Outcome.bind_eq_ok] at h
        obtain ⟨d, _, h⟩ := h
        rw [Outcome.bind_eq_ok] at h
        obtain ⟨f, _, h⟩ := h
        rw [Outcome.bind_eq_ok] at h
        obtain ⟨g, _, h⟩ := h
        cases h
        exact hexp _

/-- The stored partial coefficients are non-negative. -/
def PartialsNonneg (e : Element K) : Prop := ∀ s l, e.partialV.find? s = some l → ∀ v ∈ l, 0 ≤ v

theorem partialsLoop_nonneg (hexp : ExpNonneg K) {e : Element K} {x : K} (hV : PartialsNonneg e) (shells : List Str)
    (acc : SMap Str K) (hacc : ∀ p ∈ acc, 0 ≤ p.2) (out : SMap Str K)
    (h : partialsLoop e x shells acc = .ok out) : ∀ p ∈ out, 0 ≤ p.2 := by
  have hl : ∀ s, ∀ v ∈ (e.partialV.find? s).getD [], 0 ≤ v := by
    intro s v hv
    cases hf : e.partialV.find? s with
    | none => rw [hf] at hv; simp at hv
    | some l => rw [hf] at hv; exact hV s l hf v hv
  have hins : ∀ (acc : SMap Str K) s v, (∀ p ∈ acc, 0 ≤ p.2) → 0 ≤ v → ∀ p ∈ acc.insert s v, (0 : K) ≤ p.2 := by
    intro acc s v ha hv p hp
    rcases SMap.mem_insert hp with rfl | hp
    · exact hv
    · exact ha p hp
  induction shells generalizing acc with
  | nil => simp only [partialsLoop, Outcome.ok.injEq] at h; rw [← h]; exact hacc
  | cons s r ih =>
    unfold partialsLoop at h
    split at h
    · split at h
      · cases h
      · split at h
        · exact ih _ (hins acc s 0 hacc (le_refl _)) h
        · rw [Outcome.bind_eq_ok] at h
          obtain ⟨v, hv, h⟩ := h
          exact ih _ (hins acc s v hacc (partialValue_nonneg hexp (hl s) hv)) h
    · rw [Outcome.bind_eq_ok] at h
      obtain ⟨v, hv, h⟩ := h
      exact ih _ (hins acc s v hacc (partialValue_nonneg hexp (hl s) hv)) h

/-- What is required of returned coefficients: non-negative partial ones, adding up to the photoelectric one. -/
def MuOk (m : Mu K) : Prop :=
  (∀ s, 0 ≤ at0 m.partials s) ∧ m.photoelectric = (photoShells.map (at0 m.partials)).sum

theorem computeMu_ok (hexp : ExpNonneg K) {e : Element K} {x : K} {m : Mu K} (hV : PartialsNonneg e)
    (h : computeMu e x = .ok m) : MuOk m := by
  unfold computeMu at h
  rw [Outcome.bind_eq_ok] at h
  obtain ⟨parts, hparts, h⟩ := h
  have hnn : ∀ p ∈ parts, (0 : K) ≤ p.2 := by
    unfold partialsOrZero at hparts
    split at hparts
    · exact partialsLoop_nonneg hexp hV _ _ (by simp) _ hparts
    · cases hparts
      intro p hp
      have := SMap.ofList_mem hp
      simp only [List.mem_map] at this
      obtain ⟨s, _, rfl⟩ := this
      exact le_refl _
  rw [Outcome.bind_eq_ok] at h
  obtain ⟨b, hb, h⟩ := h
  simp only at h
  rw [Outcome.bind_eq_ok] at h
  obtain ⟨coh, hcoh, h⟩ := h
  rw [Outcome.bind_eq_ok] at h
  obtain ⟨com, hcom, h⟩ := h
  rw [Outcome.bind_eq_ok] at h
  obtain ⟨pai, hpai, h⟩ := h
  simp only [Outcome.pure_eq, Outcome.ok.injEq] at h
  rw [← h]
  constructor
  · intro s
    simp only [at0]
    cases hf : parts.find? s with
    | none => exact le_refl _
    | some v => exact hnn _ (SMap.mem_of_find? hf)
  · simp only [photoShells, keys, List.map_cons, List.map_nil, List.map_append, List.sum_append, List.sum_cons,
      List.sum_nil]
    ring

/-- Invariant of C21: data and cached coefficients. -/
structure VacInv (e : Element K) : Prop where
  data : PartialsNonneg e
  cache : ∀ x m, e.muCache.find? x = some m → MuOk m

theorem getMu_ok (hexp : ExpNonneg K) {e : Element K} (h : VacInv e) {x : K} {m : Mu K} (hm : e.getMu x = .ok m) : MuOk m := by
  unfold getMu at hm
  split at hm
  · cases hm
  · split at hm
    · split at hm
      · rename_i m' hm'
        cases hm
        exact h.cache x _ hm'
      · exact computeMu_ok hexp h.data hm
    · exact computeMu_ok hexp h.data hm

theorem vacInv_mu (hexp : ExpNonneg K) {e : Element K} (h : VacInv e) (x : K) (m : Mu K) (hm : e.getMu x = .ok m) :
    VacInv { e with muCache := e.muCache.insert x m } := by
  refine ⟨h.data, ?_⟩
  intro y m' hy
  simp only [SMap.find?_insert] at hy
  split at hy
  · cases hy; exact getMu_ok hexp h hm
  · exact h.cache y m' hy

theorem shiftLoop_nonneg (b : K) (fuel : Nat) (E V : List K) (i : Nat) (hV : ∀ v ∈ V, 0 ≤ v) :
    ∀ v ∈ (shiftLoop b E V i fuel).2, 0 ≤ v := by
  induction fuel generalizing E V i with
  | zero => exact hV
  | succ n ih =>
    have hset : ∀ j (y : K), 0 ≤ y → ∀ v ∈ V.set j y, 0 ≤ v := by
      intro j y hy v hv
      rcases List.mem_or_eq_of_mem_set hv with h | h
      · exact hV v h
      · rw [h]; exact hy
    unfold shiftLoop
    split
    · exact ih _ _ _ (hset i 0 (le_refl _))
    · split
      · apply ih
        apply hset
        rw [List.getD_eq_getElem?_getD]
        cases hg : V[i]? with
        | none => simp
        | some v => exact hV v (List.mem_of_getElem? hg)
      · exact ih _ _ _ hV

/-- The calls of a history supply non-negative partial coefficients. -/
def Op.NonnegPartials : Op K → Prop
  | .setPartial _ _ v => ∀ y ∈ v, 0 ≤ y
  | _ => True

theorem step_partialV (e : Element K) (op : Op K) (hop : ∀ s en v, op ≠ .setPartial s en v) :
    (e.step op).2.partialV = e.partialV := by
  cases op with
  | setAtomicNumber z => simp only [step, setAtomicNumber]; split <;> rfl
  | setBindingEnergies b => rfl
  | setMass en ph co cm pa =>
    simp only [step, setMassAttenuationCoefficients]
    repeat' split
    all_goals rfl
  | setPartial s en v => exact absurd rfl (hop s en v)
  | setRadiative s l v =>
    simp only [step, setRadiative]
    split <;> rfl
  | setRadiativeMap s m =>
    simp only [step, setRadiativeMap]
    repeat' split
    all_goals rfl
  | setNonradiative s l v =>
    simp only [step, setNonradiative]
    repeat' split
    all_goals rfl
  | setNonradiativeMap s m =>
    simp only [step, setNonradiativeMap, setNonradiative]
    repeat' split
    all_goals rfl
  | setShellConstants s c =>
    simp only [step, setShellConstants]
    repeat' split
    all_goals rfl
  | setCascadeCacheEnabled f =>
    simp only [step, setCascadeCacheEnabled, fillCascadeCache]
    repeat' split
    all_goals rfl
  | fillCascadeCache =>
    simp only [step, fillCascadeCache]
    split <;> rfl
  | emptyCascadeCache => rfl
  | setCacheEnabled f => rfl
  | clearCache => rfl
  | fillCache l =>
    simp only [step, fillCache]
    exact fillLoop_induct (fun f => f.partialV = e.partialV) (fun _ _ _ h _ => h)
      (fun _ _ _ h _ _ => h) _ _ rfl
  | updateCache l =>
    simp only [step, updateCache]
    exact updateLoop_induct (fun f => f.partialV = e.partialV) (fun _ _ _ h _ _ => h)
      (fun _ _ _ h _ _ => h) _ _ rfl

theorem vacInv_step (hexp : ExpNonneg K) {e : Element K} (h : VacInv e) (op : Op K) (hop : op.NonnegPartials) :
    VacInv (e.step op).2 := by
  have ofCaches : (∀ s en v, op ≠ .setPartial s en v) → (∀ l, op ≠ .fillCache l) → (∀ l, op ≠ .updateCache l) →
      VacInv (e.step op).2 := by
    intro h1 h2 h3
    have hp := step_partialV e op h1
    refine ⟨by unfold PartialsNonneg; rw [hp]; exact h.data, ?_⟩
    rcases step_caches e op ⟨h2, h3⟩ with ⟨g, _⟩ | ⟨g, _⟩
    · rw [g]; exact h.cache
    · rw [g]; intro x m hx; simp at hx
  cases op with
  | setPartial s en v =>
    simp only [step, setPartial]
    have hempty : ∀ (x : K) (m : Mu K), SMap.find? ([] : SMap K (Mu K)) x = some m → MuOk m := by intro x m hx; simp at hx
    have ins : ∀ (l : List K), (∀ y ∈ l, 0 ≤ y) →
        ∀ s' l', (e.partialV.insert s l).find? s' = some l' → ∀ v ∈ l', (0 : K) ≤ v := by
      intro l hl s' l' hf
      rw [SMap.find?_insert] at hf
      split at hf
      · cases hf; exact hl
      · exact h.data s' l' hf
    repeat' split
    all_goals first
      | exact h
      | exact ⟨ins _ (shiftLoop_nonneg _ _ _ _ _ hop), hempty⟩
      | exact ⟨ins _ hop, hempty⟩
  | fillCache l =>
    simp only [step, fillCache]
    have key : VacInv (fillLoop { e.clearCache with cacheOn := false } (l.take cacheMaximumSize)).2 := by
      apply fillLoop_induct VacInv (fun e x m hp hm => vacInv_mu hexp hp x m hm)
        (fun e x f hp _ _ => ⟨hp.data, hp.cache⟩)
      exact ⟨h.data, by intro x m hx; simp [clearCache] at hx⟩
    exact ⟨key.data, key.cache⟩
  | updateCache l =>
    simp only [step, updateCache]
    have key : VacInv (updateLoop { e with cacheOn := false } l).2 := by
      apply updateLoop_induct VacInv (fun e x m hp _ hm => vacInv_mu hexp hp x m hm)
        (fun e x f hp _ _ => ⟨hp.data, hp.cache⟩)
      exact ⟨h.data, h.cache⟩
    exact ⟨key.data, key.cache⟩
  | _ => exact ofCaches (by simp) (by simp) (by simp)

theorem vacInv_run (hexp : ExpNonneg K) {e : Element K} (h : VacInv e) (ops : List (Op K)) (hops : ∀ op ∈ ops, op.NonnegPartials) :
    VacInv (run e ops) := by
  induction ops generalizing e with
  | nil => exact h
  | cons op r ih =>
    exact ih (vacInv_step hexp h op (hops op (by simp))) (fun o ho => hops o (List.mem_cons_of_mem _ ho))

theorem vacInv_mk {z : Int} {e0 : Element K} (h0 : mk? z = .ok e0) : VacInv e0 := by
  unfold mk? at h0
  split at h0
  · cases h0
  · cases h0
    refine ⟨?_, by intro x m hx; simp at hx⟩
    intro s l hf v hv
    have := SMap.ofList_mem (SMap.mem_of_find? hf)
    simp only [List.mem_map, Prod.mk.injEq] at this
    obtain ⟨_, _, _, rfl⟩ := this
    simp at hv

theorem photo_sorted : photoShells.Pairwise (· < ·) := by decide +kernel

theorem ofList_photo {ν : Type} (f : Str → ν) :
    SMap.ofList (photoShells.map (fun s => (s, f s))) = photoShells.map (fun s => (s, f s)) := by
  apply SMap.ofList_eq_self
  unfold SMap.Sorted
  rw [List.pairwise_map]
  exact photo_sorted

/-- **C21** For every history of calls with non-negative partial coefficients (with or without caches), the initial
vacancy distribution returned for any energy has exactly the ten entries K, L1-L3, M1-M5 and "all other", none of
them negative, and they add up to one, or they are all zero when there is no photoelectric absorption. -/
theorem C21_distribution (hexp : ExpNonneg K) {z : Int} {e0 : Element K} (h0 : mk? z = .ok e0) (ops : List (Op K))
    (hops : ∀ op ∈ ops, op.NonnegPartials) (x : K) (d : SMap Str K)
    (hd : (run e0 ops).getInitialVacancies x = .ok d) :
    d.keys = photoShells ∧ (∀ p ∈ d, 0 ≤ p.2) ∧
    (SMap.total d = 1 ∨
      ((∀ p ∈ d, p.2 = 0) ∧ ∃ m, (run e0 ops).getMu x = .ok m ∧ m.photoelectric = 0)) := by
  have hinv := vacInv_run hexp (vacInv_mk h0) ops hops
  generalize run e0 ops = e at hd hinv
  unfold getInitialVacancies at hd
  rw [Outcome.bind_eq_ok] at hd
  obtain ⟨m, hm, hd⟩ := hd
  obtain ⟨hnn, hsum⟩ := getMu_ok hexp hinv hm
  simp only [Outcome.pure_eq, Outcome.ok.injEq] at hd
  rw [ofList_photo (fun s => if m.photoelectric > 0 then at0 m.partials s / m.photoelectric else 0)] at hd
  subst hd
  have hp0 : 0 ≤ m.photoelectric := by
    rw [hsum]
    apply List.sum_nonneg
    intro v hv
    obtain ⟨s, _, rfl⟩ := List.mem_map.1 hv
    exact hnn s
  refine ⟨?_, ?_, ?_⟩
  · simp [SMap.keys, List.map_map, Function.comp_def]
  · intro p hp
    obtain ⟨s, _, rfl⟩ := List.mem_map.1 hp
    simp only
    split
    · exact div_nonneg (hnn s) hp0
    · exact le_refl _
  · rcases lt_or_eq_of_le hp0 with h | h
    · left
      unfold SMap.total
      rw [List.map_map]
      have : (Prod.snd ∘ fun s => (s, if m.photoelectric > 0 then at0 m.partials s / m.photoelectric else 0))
          = fun s => at0 m.partials s / m.photoelectric := by
        funext s; simp [h]
      rw [this]
      have h2 := Shell.sum_map_div (photoShells.map (at0 m.partials)) m.photoelectric
      rw [List.map_map] at h2
      rw [show (fun s => at0 m.partials s / m.photoelectric)
        = ((fun a => a / m.photoelectric) ∘ at0 m.partials) from rfl, h2, ← hsum]
      exact div_self (ne_of_gt h)
    · right
      refine ⟨?_, m, hm, h.symm⟩
      intro p hp
      obtain ⟨s, _, rfl⟩ := List.mem_map.1 hp
      simp [← h]

end vacancies

/-- **C21** The same with the exponential and logarithm of the real numbers, without further hypothesis. -/
theorem C21_distribution_real {z : Int} {e0 : Element ℝ} (h0 : mk? z = .ok e0) (ops : List (Op ℝ))
    (hops : ∀ op ∈ ops, op.NonnegPartials) (x : ℝ) (d : SMap Str ℝ)
    (hd : (run e0 ops).getInitialVacancies x = .ok d) :
    d.keys = photoShells ∧ (∀ p ∈ d, 0 ≤ p.2) ∧
    (SMap.total d = 1 ∨
      ((∀ p ∈ d, p.2 = 0) ∧ ∃ m, (run e0 ops).getMu x = .ok m ∧ m.photoelectric = 0)) :=
  C21_distribution (fun x => le_of_lt (Real.exp_pos x)) h0 ops hops x d hd

/-- Some functions with rational values, for the examples. -/
@[reducible] def exampleTrans : Trans ℚ := ⟨fun x => x - 1, fun x => if x < 0 then 0 else x + 1⟩

/-- A history meeting the hypotheses of C21 with vacancies in two shells. -/
example : letI := exampleTrans
    ∃ e0 : Element ℚ, mk? 8 = .ok e0 ∧
    ((run e0 [.setBindingEnergies (keys.map (fun k => (k, if k = "K".toList then 1 / 2 else 0))),
      .setMass [1, 1] [3, 3] [1, 1] [1, 1] [],
      .setPartial "K".toList [1, 2] [3, 3], .setPartial allOther [1, 1] [3, 3],
      .setCacheEnabled true, .updateCache [1]]).getInitialVacancies 1).bind (fun d => .ok (decide
        (SMap.total d = 1 ∧ 0 < at0 d "K".toList ∧ 0 < at0 d allOther))) = .ok true := by
  refine ⟨_, rfl, ?_⟩
  decide +kernel

/-- **C98** (violation) The API accepts binding energies for which a transition has a negative energy: a 1 eV inner
shell with an undefined outer one. -/
theorem C98_positive_violated : ∃ e : Element ℚ, mk? 3 = .ok e ∧
    (e.setBindingEnergies [("K".toList, 1 / 1000)]).1 = .ok () ∧
    (e.setBindingEnergies [("K".toList, 1 / 1000)]).2.getTransitionEnergy "KL3".toList = .ok (-2 / 1000) := by
  refine ⟨_, rfl, ?_⟩
  decide +kernel

/-- The hypotheses of the C53 theorems are met by iron. -/
example : ∃ e : Element ℚ, mk? 26 = .ok e ∧
    (let e := (e.setBindingEnergies [("K".toList, 7112 / 1000), ("L3".toList, 707 / 1000)]).2
     e.getTransitionEnergy "KL3".toList = .ok (6405 / 1000) ∧
     e.getTransitionEnergy "KM3".toList = .ok (7109 / 1000)) := by
  refine ⟨_, rfl, ?_⟩
  decide +kernel

end Element
end Fisx
