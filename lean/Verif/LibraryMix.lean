import Verif.LibraryComp
import Verif.ElementCache

/-!
# Mixtures: C31
-/

set_option linter.unusedSectionVars false

namespace Fisx
namespace Library

open Outcome

variable {K : Type} [Field K] [LinearOrder K] [IsStrictOrderedRing K] [Trans K] [Trig K]

/-! ### Specification -/

/-- The sum of a quantity over a composition, with its amounts as weights. -/
def weighted (c : List (String × K)) (S : String → K) : K := (c.map (fun e => e.2 * S e.1)).sum

/-- The element `n` has the mass attenuation coefficients `m` at the energy `x`. -/
def ElementMu (L : Library K) (x : K) (n : String) (m : Mu K) : Prop :=
  ∃ e, L.getElement n = .ok e ∧ e.data.getMu x = .ok m

/-- The average of a quantity of the elements over substances of compositions `G`, in the amounts `input`. -/
def average (input : List (String × K)) (G : String → SMap String K) (q : String → K) : K :=
  weighted input (fun n => weighted (G n) q) / (input.map Prod.snd).sum

/-- The mixture rule: each process is averaged, the total is the sum of the processes. -/
structure MixtureRule (input : List (String × K)) (G : String → SMap String K) (M : String → Mu K) (x : K) (r : Mix K) :
    Prop where
  energy : r.energy = x
  coherent : r.coherent = average input G (fun n => (M n).coherent)
  compton : r.compton = average input G (fun n => (M n).compton)
  pair : r.pair = average input G (fun n => (M n).pair)
  photoelectric : r.photoelectric = average input G (fun n => (M n).photoelectric)
  total : r.total = r.coherent + r.compton + r.pair + r.photoelectric

/-! ### Sums -/

theorem weighted_nil (S : String → K) : weighted ([] : List (String × K)) S = 0 := rfl

theorem weighted_cons (e : String × K) (c : List (String × K)) (S : String → K) :
    weighted (e :: c) S = e.2 * S e.1 + weighted c S := by simp [weighted]

theorem weighted_insert (m : SMap String K) (hs : m.Sorted) (k : String) (v : K) (S : String → K) :
    weighted (m.insert k v) S = weighted m S + (v - (m.find? k).getD 0) * S k := by
  induction m with
  | nil => simp [SMap.insert, weighted]
  | cons e m ih =>
    rw [SMap.sorted_cons] at hs
    unfold SMap.insert
    by_cases h1 : k < e.1
    · rw [if_pos h1]
      have : SMap.find? (e :: m) k = none := by
        rw [SMap.find?_eq_none_iff]
        intro x hx
        rcases List.mem_cons.1 hx with rfl | hx
        · exact h1.ne'
        · exact (lt_trans h1 (hs.1 x hx)).ne'
      rw [this]
      simp only [weighted_cons, Option.getD_none]
      ring
    · rw [if_neg h1]
      by_cases h2 : e.1 = k
      · rw [if_pos h2]
        simp only [weighted_cons, SMap.find?_cons, if_pos h2, Option.getD_some]
        subst h2
        ring
      · rw [if_neg h2]
        simp only [weighted_cons, SMap.find?_cons, if_neg h2]
        rw [ih hs.2]
        ring

theorem weighted_addTo (m : SMap String K) (hs : m.Sorted) (k : String) (v : K) (S : String → K) :
    weighted (addTo m k v) S = weighted m S + v * S k := by
  unfold addTo
  rw [weighted_insert m hs]
  ring

theorem weighted_addScaled (c : List (String × K)) (acc : SMap String K) (hs : acc.Sorted) (w : K) (S : String → K) :
    weighted (addScaled acc c w) S = weighted acc S + w * weighted c S := by
  induction c generalizing acc with
  | nil => simp [addScaled, weighted]
  | cons e c ih =>
    have : addScaled acc (e :: c) w = addScaled (addTo acc e.1 (e.2 * w)) c w := rfl
    rw [this, ih (addTo acc e.1 (e.2 * w)) (SMap.insert_sorted hs _ _), weighted_addTo _ hs, weighted_cons]
    ring

theorem weighted_mixFold (G : String → SMap String K) (items : List (String × K)) (acc : SMap String K)
    (hs : acc.Sorted) (S : String → K) :
    weighted (mixFold G items acc) S = weighted acc S + weighted items (fun n => weighted (G n) S) := by
  induction items generalizing acc with
  | nil => simp [mixFold, weighted]
  | cons e items ih =>
    have : mixFold G (e :: items) acc = mixFold G items (addScaled acc (G e.1) e.2) := rfl
    rw [this, ih _ (addScaled_sorted _ _ _ hs), weighted_addScaled _ _ hs, weighted_cons]
    ring

theorem weighted_div (c : List (String × K)) (S : String → K) (t : K) :
    (c.map (fun e => S e.1 * (e.2 / t))).sum = weighted c S / t := by
  induction c with
  | nil => simp [weighted]
  | cons e c ih =>
    rw [List.map_cons, List.sum_cons, ih, weighted_cons]
    ring

/-! ### The elements of a composition -/

theorem comp_keys (pf : String → Outcome (SMap String K)) (hpf : ParserOK pf) (L : Library K) (hinv : Inv L)
    (fuel : Nat) : ∀ (name : String) (c : SMap String K), comp pf L fuel name = .ok c →
      ∀ e ∈ c, ∃ x, L.massOf e.1 = some x := by
  induction fuel with
  | zero => intro name c h; simp [comp] at h
  | succ fuel ih =>
    intro name c h
    rcases comp_cases pf hpf L hinv fuel name c h with ⟨f, M, hf, _, hM, rfl⟩ | ⟨_, _, rfl⟩ | ⟨_, m, _, _, h⟩
    · intro e he
      obtain ⟨e', he', rfl⟩ := List.mem_map.1 he
      exact ⟨_, hM e' he'⟩
    · simp
    · rcases mixLoop_cases _ _ _ _ h with ⟨rfl, _⟩ | ⟨G, hG, rfl⟩
      · simp
      · exact mixFold_keys (fun n => ∃ x, L.massOf n = some x) G _ []
          (fun e he => ih e.1 (G e.1) (hG e he).1) (by simp)

theorem massOf_getElement (L : Library K) (n : String) (x : K) (h : L.massOf n = some x) :
    ∃ e, L.getElement n = .ok e ∧ e.mass = x := by
  unfold massOf at h
  split at h
  · rename_i el hel
    injection h with h
    exact ⟨el, hel, h⟩
  · cases h

theorem getElement_dict (L : Library K) (n : String) (e : LibElement K) (h : L.getElement n = .ok e) :
    ∃ i, L.dict.find? n = some i ∧ vget L.elements i = .ok e := by
  unfold getElement at h
  split at h
  · split at h
    · rename_i i hi
      exact ⟨i, hi, h⟩
    · cases h
  · cases h

/-! ### The amounts of the elements -/

theorem mixFold_congr (G H : String → SMap String K) (items : List (String × K)) (h : ∀ e ∈ items, G e.1 = H e.1) :
    ∀ acc, mixFold G items acc = mixFold H items acc := by
  induction items with
  | nil => intro acc; rfl
  | cons e items ih =>
    intro acc
    have h1 : mixFold G (e :: items) acc = mixFold G items (addScaled acc (G e.1) e.2) := rfl
    have h2 : mixFold H (e :: items) acc = mixFold H items (addScaled acc (H e.1) e.2) := rfl
    rw [h1, h2, h e (by simp), ih (fun e he => h e (List.mem_cons_of_mem _ he))]

theorem amountsLoop_ok (pf : String → Outcome (SMap String K)) (L : Library K) (fuel : Nat)
    (items : List (String × K)) : ∀ (acc : SMap String K) (t : K) (r : SMap String K × K),
    amountsLoop pf L fuel items acc t = .ok r →
      ∃ G : String → SMap String K, (∀ e ∈ items, 0 ≤ e.2 ∧ comp pf L fuel e.1 = .ok (G e.1) ∧ G e.1 ≠ [])
        ∧ r = (mixFold G items acc, t + (items.map Prod.snd).sum) := by
  induction items with
  | nil =>
    intro acc t r h
    injection h with h
    exact ⟨fun _ => [], by simp, by simp [← h, mixFold]⟩
  | cons e items ih =>
    intro acc t r h
    obtain ⟨n, w⟩ := e
    unfold amountsLoop at h
    split at h
    · cases h
    · rename_i hw
      obtain ⟨c, hc, h⟩ := bind_eq_ok.1 h
      split at h
      · cases h
      · rename_i hl
        obtain ⟨G, hG, hr⟩ := ih _ _ _ h
        have hcne : c ≠ [] := by
          intro hh
          subst hh
          simp at hl
        have hGn : ∀ e ∈ items, e.1 = n → G e.1 = c := by
          intro e he hen
          have := (hG e he).2.1
          rw [hen, hc] at this
          injection this with this
          rw [hen, ← this]
        refine ⟨fun k => if k = n then c else G k, ?_, ?_⟩
        · intro e he
          rcases List.mem_cons.1 he with rfl | he
          · exact ⟨not_lt.1 hw, by simpa using hc, by simpa using hcne⟩
          · dsimp only
            split
            · rename_i hen
              rw [hen]
              exact ⟨(hG e he).1, hc, hcne⟩
            · exact hG e he
        · rw [hr]
          have : mixFold (fun k => if k = n then c else G k) items (addScaled acc c w) = mixFold G items (addScaled acc c w) := by
            apply mixFold_congr
            intro e he
            split
            · rename_i hen; exact (hGn e he hen).symm
            · rfl
          have h2 : mixFold (fun k => if k = n then c else G k) ((n, w) :: items) acc
              = mixFold (fun k => if k = n then c else G k) items (addScaled acc (if n = n then c else G n) w) := rfl
          rw [h2, if_pos rfl, this]
          simp [add_assoc]

theorem amountsLoop_of (pf : String → Outcome (SMap String K)) (L : Library K) (fuel : Nat)
    (G : String → SMap String K) (items : List (String × K))
    (h : ∀ e ∈ items, 0 ≤ e.2 ∧ comp pf L fuel e.1 = .ok (G e.1) ∧ G e.1 ≠ []) : ∀ (acc : SMap String K) (t : K),
    amountsLoop pf L fuel items acc t = .ok (mixFold G items acc, t + (items.map Prod.snd).sum) := by
  induction items with
  | nil => intro acc t; simp [amountsLoop, mixFold]
  | cons e items ih =>
    intro acc t
    obtain ⟨n, w⟩ := e
    obtain ⟨h1, h2, h3⟩ := h (n, w) (by simp)
    unfold amountsLoop
    dsimp only at h1 h2 h3
    rw [if_neg (not_lt.2 h1), h2, ok_bind, if_neg (by
      intro hl
      exact h3 (List.length_eq_zero_iff.1 (Nat.lt_one_iff.1 hl)))]
    rw [ih (fun e he => h e (List.mem_cons_of_mem _ he))]
    simp [mixFold, add_assoc]

theorem addTo_covers (m : SMap String K) (k : String) (v : K) : ∃ q ∈ addTo m k v, q.1 = k := by
  have h : (addTo m k v).find? k = some ((m.find? k).getD 0 + v) := by
    unfold addTo
    rw [SMap.find?_insert, if_pos rfl]
  exact ⟨_, SMap.mem_of_find? h, rfl⟩

theorem addTo_keeps (m : SMap String K) (k : String) (v : K) (n : String) (h : ∃ q ∈ m, q.1 = n) :
    ∃ q ∈ addTo m k v, q.1 = n := by
  by_cases hkn : k = n
  · subst hkn
    exact addTo_covers m k v
  · have hf : m.find? n ≠ none := by
      intro hh
      rw [SMap.find?_eq_none_iff] at hh
      obtain ⟨q, hq, hqn⟩ := h
      exact hh q hq hqn
    obtain ⟨y, hy⟩ := Option.ne_none_iff_exists'.1 hf
    have h : (addTo m k v).find? n = some y := by
      unfold addTo
      rw [SMap.find?_insert, if_neg hkn, hy]
    exact ⟨_, SMap.mem_of_find? h, rfl⟩

theorem addScaled_keeps (c : List (String × K)) (acc : SMap String K) (w : K) (n : String)
    (h : (∃ q ∈ acc, q.1 = n) ∨ ∃ q ∈ c, q.1 = n) : ∃ q ∈ addScaled acc c w, q.1 = n := by
  induction c generalizing acc with
  | nil => simpa [addScaled] using h
  | cons e c ih =>
    refine ih (addTo acc e.1 (e.2 * w)) ?_
    rcases h with h | ⟨q, hq, hqn⟩
    · exact Or.inl (addTo_keeps _ _ _ _ h)
    · rcases List.mem_cons.1 hq with rfl | hq
      · exact Or.inl (hqn ▸ addTo_covers _ _ _)
      · exact Or.inr ⟨q, hq, hqn⟩

theorem mixFold_keeps (G : String → SMap String K) (items : List (String × K)) (acc : SMap String K) (n : String)
    (h : ∃ q ∈ acc, q.1 = n) : ∃ q ∈ mixFold G items acc, q.1 = n := by
  induction items generalizing acc with
  | nil => exact h
  | cons e items ih => exact ih _ (addScaled_keeps _ _ _ _ (Or.inl h))

theorem mixFold_covers (G : String → SMap String K) (items : List (String × K)) (acc : SMap String K)
    (e : String × K) (he : e ∈ items) (p : String × K) (hp : p ∈ G e.1) : ∃ q ∈ mixFold G items acc, q.1 = p.1 := by
  induction items generalizing acc with
  | nil => simp at he
  | cons e' items ih =>
    rcases List.mem_cons.1 he with rfl | he
    · exact mixFold_keeps G items _ _ (addScaled_keeps _ _ _ _ (Or.inr ⟨p, hp, rfl⟩))
    · exact ih _ he

/-! ### The sums over the elements -/

theorem mixSum_of (L : Library K) (t x : K) (M : String → Mu K) (items : List (String × K))
    (h : ∀ e ∈ items, ElementMu L x e.1 (M e.1)) : ∀ acc : Mix K,
    mixSum L t x items acc = .ok { acc with
      coherent := acc.coherent + weighted items (fun n => (M n).coherent) / t
      compton := acc.compton + weighted items (fun n => (M n).compton) / t
      pair := acc.pair + weighted items (fun n => (M n).pair) / t
      photoelectric := acc.photoelectric + weighted items (fun n => (M n).photoelectric) / t } := by
  induction items with
  | nil => intro acc; simp [mixSum, weighted]
  | cons e items ih =>
    intro acc
    obtain ⟨n, w⟩ := e
    obtain ⟨el, hel, hmu⟩ := h (n, w) (by simp)
    obtain ⟨i, hi, hv⟩ := getElement_dict L n el hel
    unfold mixSum
    rw [hi]
    dsimp only
    rw [hv, ok_bind, hmu, ok_bind, ih (fun e he => h e (List.mem_cons_of_mem _ he))]
    simp only [weighted_cons, Outcome.ok.injEq, Mix.mk.injEq, true_and, and_true]
    refine ⟨?_, ?_, ?_, ?_⟩ <;> ring

theorem mixSum_ok (L : Library K) (t x : K) (items : List (String × K)) (hkeys : ∀ e ∈ items, ∃ y, L.massOf e.1 = some y) :
    ∀ acc r : Mix K, mixSum L t x items acc = .ok r → ∃ M : String → Mu K, ∀ e ∈ items, ElementMu L x e.1 (M e.1) := by
  intro acc r h
  have h1 : ∀ e ∈ items, ∃ m, ElementMu L x e.1 m := by
    induction items generalizing acc with
    | nil => simp
    | cons e items ih =>
      obtain ⟨n, w⟩ := e
      unfold mixSum at h
      split at h
      · cases h
      · rename_i i hi
        obtain ⟨el, hel, h⟩ := bind_eq_ok.1 h
        obtain ⟨m, hm, h⟩ := bind_eq_ok.1 h
        intro e he
        rcases List.mem_cons.1 he with rfl | he
        · obtain ⟨y, hy⟩ := hkeys (n, w) (by simp)
          obtain ⟨el', hel', _⟩ := massOf_getElement L n y hy
          obtain ⟨j, hj, hv⟩ := getElement_dict L n el' hel'
          rw [hi] at hj
          injection hj with hj
          subst hj
          rw [hel] at hv
          injection hv with hv
          subst hv
          exact ⟨m, el, hel', hm⟩
        · exact ih (fun e he => hkeys e (List.mem_cons_of_mem _ he)) _ h e he
  classical
  refine ⟨fun n => if hn : ∃ m, ElementMu L x n m then hn.choose else
    { energy := 0, coherent := 0, compton := 0, pair := 0, photoelectric := 0, total := 0, partials := [] }, ?_⟩
  intro e he
  dsimp only
  rw [dif_pos (h1 e he)]
  exact (h1 e he).choose_spec

/-! ### C31 -/

theorem MixtureRule.unique {input : List (String × K)} {G : String → SMap String K} {M : String → Mu K} {x : K}
    {r s : Mix K} (hr : MixtureRule input G M x r) (hs : MixtureRule input G M x s) : r = s := by
  obtain ⟨r1, r2, r3, r4, r5, r6⟩ := hr
  obtain ⟨s1, s2, s3, s4, s5, s6⟩ := hs
  cases r
  cases s
  simp only at *
  subst r1 s1 r2 r3 r4 r5 s2 s3 s4 s5
  rw [r6, s6]

theorem mixMu_of (pf : String → Outcome (SMap String K)) (L : Library K) (d : Nat) (input : SMap String K) (x : K)
    (G : String → SMap String K) (M : String → Mu K)
    (h : ∀ e ∈ input, 0 ≤ e.2 ∧ L.comp pf d e.1 = .ok (G e.1) ∧ G e.1 ≠ [] ∧ ∀ p ∈ G e.1, ElementMu L x p.1 (M p.1))
    (hpos : 0 < (input.map Prod.snd).sum) : ∃ r, L.mixMu pf d input x false = .ok r ∧ MixtureRule input G M x r := by
  unfold mixMu amounts
  rw [if_neg (by simp)]
  rw [amountsLoop_of pf L d G input (fun e he => ⟨(h e he).1, (h e he).2.1, (h e he).2.2.1⟩), ok_bind, zero_add,
    if_neg (not_le.2 hpos)]
  have h1 : ∀ e ∈ mixFold G input [], ElementMu L x e.1 (M e.1) :=
    mixFold_keys (fun n => ElementMu L x n (M n)) G input [] (fun e he => (h e he).2.2.2) (by simp)
  rw [pure_eq, ok_bind]
  dsimp only
  rw [mixSum_of L _ x M _ h1, ok_bind]
  refine ⟨_, rfl, ?_, ?_, ?_, ?_, ?_, ?_⟩ <;>
    simp only [average, weighted_mixFold G input [] SMap.sorted_nil, weighted_nil, zero_add]

theorem mixMu_ok (pf : String → Outcome (SMap String K)) (hpf : ParserOK pf) (L : Library K) (hinv : Inv L) (d : Nat)
    (input : SMap String K) (x : K) (r : Mix K) (h : L.mixMu pf d input x false = .ok r) :
    ∃ (G : String → SMap String K) (M : String → Mu K),
      (∀ e ∈ input, 0 ≤ e.2 ∧ L.comp pf d e.1 = .ok (G e.1) ∧ G e.1 ≠ [] ∧ ∀ p ∈ G e.1, ElementMu L x p.1 (M p.1))
      ∧ 0 < (input.map Prod.snd).sum ∧ MixtureRule input G M x r := by
  have h' := h
  unfold mixMu amounts at h
  rw [if_neg (by simp)] at h
  obtain ⟨a, ha, h⟩ := bind_eq_ok.1 h
  obtain ⟨b, hb, hab⟩ := bind_eq_ok.1 ha
  split at hab
  · cases hab
  · rename_i hpos
    have hba : b = a := by injection hab
    subst hba
    obtain ⟨G, hG, rfl⟩ := amountsLoop_ok pf L d _ _ _ _ hb
    obtain ⟨s, hs, _⟩ := bind_eq_ok.1 h
    have hk : ∀ e ∈ mixFold G input [], ∃ y, L.massOf e.1 = some y :=
      mixFold_keys (fun n => ∃ y, L.massOf n = some y) G input []
        (fun e he => comp_keys pf hpf L hinv d e.1 _ (hG e he).2.1) (by simp)
    obtain ⟨M, hM⟩ := mixSum_ok L _ x _ hk _ _ hs
    simp only [zero_add, not_le] at hpos
    have hmem : ∀ e ∈ input, ∀ p ∈ G e.1, ∃ q ∈ mixFold G input [], q.1 = p.1 := by
      intro e he p hp
      exact mixFold_covers G input [] e he p hp
    have hall : ∀ e ∈ input, 0 ≤ e.2 ∧ L.comp pf d e.1 = .ok (G e.1) ∧ G e.1 ≠ [] ∧ ∀ p ∈ G e.1, ElementMu L x p.1 (M p.1) := by
      intro e he
      refine ⟨(hG e he).1, (hG e he).2.1, (hG e he).2.2, ?_⟩
      intro p hp
      obtain ⟨q, hq, hqp⟩ := hmem e he p hp
      rw [← hqp]
      exact hM q hq
    obtain ⟨r', hr', hrule⟩ := mixMu_of pf L d input x G M hall hpos
    rw [h'] at hr'
    injection hr' with hr'
    subst hr'
    exact ⟨G, M, hall, hpos, hrule⟩

/-- C31: the mixture rule, whenever the call returns. -/
theorem C31_mixture_rule (pf : String → Outcome (SMap String K)) (hpf : ParserOK pf) (fuel : Nat) (on : Bool)
    (key : EscapeKey K) (ops : List (Op K)) (d : Nat) (input : SMap String K) (x : K) (r : Mix K)
    (h : (run pf fuel (empty on key) ops).mixMu pf d input x false = .ok r) :
    ∃ (G : String → SMap String K) (M : String → Mu K),
      (∀ e ∈ input, 0 ≤ e.2 ∧ (run pf fuel (empty on key) ops).comp pf d e.1 = .ok (G e.1) ∧ G e.1 ≠ []
        ∧ ∀ p ∈ G e.1, ElementMu (run pf fuel (empty on key) ops) x p.1 (M p.1))
      ∧ 0 < (input.map Prod.snd).sum ∧ MixtureRule input G M x r :=
  mixMu_ok pf hpf _ (inv_run pf fuel on key ops) d input x r h

/-- C31: and it returns as soon as the amounts, the compositions and the coefficients of the elements are there. -/
theorem C31_defined (pf : String → Outcome (SMap String K)) (fuel : Nat) (on : Bool)
    (key : EscapeKey K) (ops : List (Op K)) (d : Nat) (input : SMap String K) (x : K) 
    (G : String → SMap String K) (M : String → Mu K)
    (h : ∀ e ∈ input, 0 ≤ e.2 ∧ (run pf fuel (empty on key) ops).comp pf d e.1 = .ok (G e.1) ∧ G e.1 ≠ []
        ∧ ∀ p ∈ G e.1, ElementMu (run pf fuel (empty on key) ops) x p.1 (M p.1))
    (hpos : 0 < (input.map Prod.snd).sum) :
    ∃ r, (run pf fuel (empty on key) ops).mixMu pf d input x false = .ok r ∧ MixtureRule input G M x r :=
  mixMu_of pf _ d input x G M h hpos

theorem amountsLoop_negative (pf : String → Outcome (SMap String K)) (L : Library K) (fuel : Nat)
    (items : List (String × K)) (hneg : ∃ e ∈ items, e.2 < 0) (acc : SMap String K) (t : K) (r : SMap String K × K) :
    amountsLoop pf L fuel items acc t ≠ .ok r := by
  intro h
  obtain ⟨G, hG, _⟩ := amountsLoop_ok pf L fuel items acc t r h
  obtain ⟨e, he, hlt⟩ := hneg
  exact absurd (hG e he).1 (not_le.2 hlt)

/-- C31: negative amounts are rejected: the call throws (for components whose composition is obtained). -/
theorem C31_negative_rejected (pf : String → Outcome (SMap String K)) (L : Library K) (d : Nat) (input : SMap String K)
    (x : K) (hneg : ∃ e ∈ input, e.2 < 0) (hc : ∀ e ∈ input, ∃ c, L.comp pf d e.1 = .ok c) :
    L.mixMu pf d input x false = .throw .invalidArgument := by
  have key : ∀ (items : List (String × K)), (∃ e ∈ items, e.2 < 0) → (∀ e ∈ items, ∃ c, L.comp pf d e.1 = .ok c) →
      ∀ acc t, amountsLoop pf L d items acc t = .throw .invalidArgument := by
    intro items
    induction items with
    | nil => rintro ⟨e, he, _⟩; simp at he
    | cons e items ih =>
      intro hneg hc acc t
      obtain ⟨n, w⟩ := e
      unfold amountsLoop
      split
      · rfl
      · rename_i hw
        obtain ⟨c, hcn⟩ := hc (n, w) (by simp)
        rw [hcn, ok_bind]
        split
        · rfl
        · refine ih ?_ (fun e he => hc e (List.mem_cons_of_mem _ he)) _ _
          obtain ⟨e, he, hlt⟩ := hneg
          rcases List.mem_cons.1 he with rfl | he
          · exact absurd hlt hw
          · exact ⟨e, he, hlt⟩
  unfold mixMu amounts
  rw [if_neg (by simp), key input hneg hc]
  rfl

/-! ### C31: scaling -/

/-- All the amounts multiplied by `k`. -/
def scaled (k : K) (input : SMap String K) : SMap String K := input.map (fun e => (e.1, k * e.2))

theorem scaled_insert (k : K) (m : SMap String K) (n : String) (v : K) :
    scaled k (m.insert n v) = (scaled k m).insert n (k * v) := by
  induction m with
  | nil => rfl
  | cons e m ih =>
    have h : scaled k (e :: m) = (e.1, k * e.2) :: scaled k m := rfl
    rw [h]
    unfold SMap.insert
    split
    · rfl
    · split
      · rfl
      · show (e.1, k * e.2) :: scaled k (SMap.insert m n v) = _
        rw [ih]

theorem scaled_find? (k : K) (m : SMap String K) (n : String) : (scaled k m).find? n = (m.find? n).map (fun v => k * v) := by
  unfold scaled
  rw [SMap.find?_mapVal m (fun e => k * e.2) n]

theorem scaled_addScaled (k : K) (c : List (String × K)) (acc : SMap String K) (w : K) :
    scaled k (addScaled acc c w) = addScaled (scaled k acc) c (k * w) := by
  induction c generalizing acc with
  | nil => rfl
  | cons e c ih =>
    have h1 : addScaled acc (e :: c) w = addScaled (addTo acc e.1 (e.2 * w)) c w := rfl
    have h2 : addScaled (scaled k acc) (e :: c) (k * w) = addScaled (addTo (scaled k acc) e.1 (e.2 * (k * w))) c (k * w) := rfl
    rw [h1, h2, ih]
    congr 1
    unfold addTo
    rw [scaled_insert, scaled_find?]
    congr 1
    cases acc.find? e.1 with
    | none => simp [mul_left_comm]
    | some v => simp [mul_add, mul_left_comm]

theorem amountsLoop_scaled (pf : String → Outcome (SMap String K)) (L : Library K) (d : Nat) (k : K) (hk : 0 < k)
    (items : List (String × K)) : ∀ (acc : SMap String K) (t : K),
    amountsLoop pf L d (scaled k items) (scaled k acc) (k * t)
      = (amountsLoop pf L d items acc t).bind (fun r => .ok (scaled k r.1, k * r.2)) := by
  induction items with
  | nil => intro acc t; rfl
  | cons e items ih =>
    intro acc t
    obtain ⟨n, w⟩ := e
    have h : scaled k ((n, w) :: items) = (n, k * w) :: scaled k items := rfl
    rw [h]
    unfold amountsLoop
    by_cases hw : w < 0
    · rw [if_pos hw, if_pos (mul_neg_of_pos_of_neg hk hw)]
      rfl
    · rw [if_neg hw, if_neg (not_lt.2 (mul_nonneg hk.le (not_lt.1 hw)))]
      cases comp pf L d n with
      | ok c =>
        rw [ok_bind, ok_bind]
        split
        · rfl
        · rw [← scaled_addScaled, ← mul_add, ih]
      | throw e => rfl
      | ub u => rfl
      | diverge => rfl

theorem mixSum_scaled (L : Library K) (k : K) (hk : 0 < k) (t x : K) (items : List (String × K)) :
    ∀ acc : Mix K, mixSum L (k * t) x (scaled k items) acc = mixSum L t x items acc := by
  induction items with
  | nil => intro acc; rfl
  | cons e items ih =>
    intro acc
    obtain ⟨n, w⟩ := e
    have h : scaled k ((n, w) :: items) = (n, k * w) :: scaled k items := rfl
    rw [h]
    unfold mixSum
    rw [mul_div_mul_left _ _ hk.ne']
    cases L.dict.find? n with
    | none => rfl
    | some i => simp only [ih]

/-- C31: multiplying all the amounts by the same positive number changes nothing, neither the coefficients nor the
exception. -/
theorem C31_scaling (pf : String → Outcome (SMap String K)) (L : Library K) (d : Nat) (input : SMap String K) (x k : K)
    (hk : 0 < k) : L.mixMu pf d (input.map (fun e => (e.1, k * e.2))) x false = L.mixMu pf d input x false := by
  show L.mixMu pf d (scaled k input) x false = _
  unfold mixMu amounts
  rw [if_neg (by simp), if_neg (by simp)]
  have h := amountsLoop_scaled pf L d k hk input [] 0
  rw [mul_zero] at h
  rw [show (scaled k ([] : SMap String K)) = [] from rfl] at h
  rw [h]
  cases amountsLoop pf L d input [] 0 with
  | ok r =>
    show ((if k * r.2 ≤ 0 then Outcome.throw .invalidArgument else pure (scaled k r.1, k * r.2)) >>= _) = 
      ((if r.2 ≤ 0 then Outcome.throw .invalidArgument else pure r) >>= _)
    by_cases h0 : r.2 ≤ 0
    · rw [if_pos h0, if_pos (mul_nonpos_of_nonneg_of_nonpos hk.le h0)]
    · rw [if_neg h0, if_neg (not_le.2 (mul_pos hk (not_le.1 h0)))]
      simp only [pure_eq, ok_bind, mixSum_scaled L k hk]
  | throw e => rfl
  | ub u => rfl
  | diverge => rfl

/-! ### C31: mixtures of mixtures -/

theorem sum_addScaled (c : List (String × K)) (acc : SMap String K) (hs : acc.Sorted) (w : K) :
    ((addScaled acc c w).map Prod.snd).sum = (acc.map Prod.snd).sum + w * (c.map Prod.snd).sum := by
  have := weighted_addScaled c acc hs w (fun _ => 1)
  simpa [weighted] using this

/-- Two mixtures put together: `a` parts of the first one and `b` of the second one. -/
def blend (a : K) (A : SMap String K) (b : K) (B : SMap String K) : SMap String K :=
  addScaled (addScaled [] A (a / (A.map Prod.snd).sum)) B (b / (B.map Prod.snd).sum)

/-- The weighted mean of two sets of coefficients. -/
def meanMix (a : K) (r : Mix K) (b : K) (s : Mix K) : Mix K :=
  { energy := r.energy
    coherent := (a * r.coherent + b * s.coherent) / (a + b)
    compton := (a * r.compton + b * s.compton) / (a + b)
    pair := (a * r.pair + b * s.pair) / (a + b)
    photoelectric := (a * r.photoelectric + b * s.photoelectric) / (a + b)
    total := (a * r.total + b * s.total) / (a + b) }

theorem addScaled_keys (c : List (String × K)) (acc : SMap String K) (w : K) :
    ∀ e ∈ addScaled acc c w, (∃ p ∈ acc, p.1 = e.1) ∨ ∃ p ∈ c, p.1 = e.1 := by
  intro e he
  have := addScaled_mem c acc w (fun n _ => (∃ p ∈ acc, p.1 = n) ∨ ∃ p ∈ c, p.1 = n)
    (fun e he => Or.inl ⟨e, he, rfl⟩) (fun n x y h hm => h) (fun n y hm => Or.inr ⟨(n, y), hm, rfl⟩)
  exact this e he

theorem addScaled_nonneg (c : List (String × K)) (acc : SMap String K) (w : K) (hw : 0 ≤ w) (ha : ∀ e ∈ acc, 0 ≤ e.2)
    (hc : ∀ e ∈ c, 0 ≤ e.2) : ∀ e ∈ addScaled acc c w, 0 ≤ e.2 :=
  addScaled_mem c acc w (fun _ v => 0 ≤ v) ha
    (fun n x y h hm => add_nonneg h (mul_nonneg (hc (n, y) hm) hw))
    (fun n y hm => by rw [zero_add]; exact mul_nonneg (hc (n, y) hm) hw)

/-- What `getComposition` returns. -/
def compOf (pf : String → Outcome (SMap String K)) (L : Library K) (d : Nat) (n : String) : SMap String K :=
  match L.comp pf d n with
  | .ok c => c
  | _ => []

/-- The coefficients of an element. -/
def muOf (L : Library K) (x : K) (n : String) : Mu K :=
  match L.getElement n >>= fun e => e.data.getMu x with
  | .ok m => m
  | _ => { energy := 0, coherent := 0, compton := 0, pair := 0, photoelectric := 0, total := 0, partials := [] }

theorem compOf_eq (pf : String → Outcome (SMap String K)) (L : Library K) (d : Nat) (n : String) (c : SMap String K)
    (h : L.comp pf d n = .ok c) : compOf pf L d n = c := by
  unfold compOf
  rw [h]

theorem muOf_eq (L : Library K) (x : K) (n : String) (m : Mu K) (h : ElementMu L x n m) : muOf L x n = m := by
  obtain ⟨e, he, hm⟩ := h
  unfold muOf
  rw [he, ok_bind, hm]

/-- The hypotheses of the mixture rule. -/
def Mixable (pf : String → Outcome (SMap String K)) (L : Library K) (d : Nat) (x : K) (n : String) : Prop :=
  L.comp pf d n = .ok (compOf pf L d n) ∧ compOf pf L d n ≠ [] ∧ ∀ p ∈ compOf pf L d n, ElementMu L x p.1 (muOf L x p.1)

theorem mixMu_canon (pf : String → Outcome (SMap String K)) (hpf : ParserOK pf) (L : Library K) (hinv : Inv L) (d : Nat)
    (input : SMap String K) (x : K) (r : Mix K) (h : L.mixMu pf d input x false = .ok r) :
    (∀ e ∈ input, 0 ≤ e.2 ∧ Mixable pf L d x e.1) ∧ 0 < (input.map Prod.snd).sum
      ∧ MixtureRule input (compOf pf L d) (muOf L x) x r := by
  obtain ⟨G, M, hG, hGp, hr⟩ := mixMu_ok pf hpf L hinv d input x r h
  have hall : ∀ e ∈ input, 0 ≤ e.2 ∧ Mixable pf L d x e.1 := by
    intro e he
    obtain ⟨h1, h2, h3, h4⟩ := hG e he
    have hc := compOf_eq pf L d e.1 _ h2
    refine ⟨h1, ?_, ?_, ?_⟩
    · rw [hc]; exact h2
    · rw [hc]; exact h3
    · rw [hc]
      intro p hp
      rw [muOf_eq L x p.1 _ (h4 p hp)]
      exact h4 p hp
  refine ⟨hall, hGp, ?_⟩
  obtain ⟨r', hr', hrule⟩ := mixMu_of pf L d input x (compOf pf L d) (muOf L x)
    (fun e he => ⟨(hall e he).1, (hall e he).2⟩) hGp
  rw [h] at hr'
  injection hr' with hr'
  subst hr'
  exact hrule

/-- C31: mixing two mixtures gives the mean of their coefficients, with the proportions as weights. -/
theorem C31_blend (pf : String → Outcome (SMap String K)) (hpf : ParserOK pf) (fuel : Nat) (on : Bool)
    (key : EscapeKey K) (ops : List (Op K)) (d : Nat) (A B : SMap String K) (x a b : K) (r s : Mix K)
    (ha : 0 ≤ a) (hb : 0 ≤ b) (hab : 0 < a + b)
    (hA : (run pf fuel (empty on key) ops).mixMu pf d A x false = .ok r)
    (hB : (run pf fuel (empty on key) ops).mixMu pf d B x false = .ok s) :
    (run pf fuel (empty on key) ops).mixMu pf d (blend a A b B) x false = .ok (meanMix a r b s) := by
  have hinv := inv_run pf fuel on key ops
  generalize run pf fuel (empty on key) ops = L at *
  obtain ⟨hGA, hpA, hr⟩ := mixMu_canon pf hpf L hinv d A x r hA
  obtain ⟨hGB, hpB, hs⟩ := mixMu_canon pf hpf L hinv d B x s hB
  have hsum : ((blend a A b B).map Prod.snd).sum = a + b := by
    unfold blend
    rw [sum_addScaled _ _ (addScaled_sorted _ _ _ SMap.sorted_nil), sum_addScaled _ _ SMap.sorted_nil]
    rw [div_mul_cancel₀ _ hpA.ne', div_mul_cancel₀ _ hpB.ne']
    simp
  have hnn : ∀ e ∈ blend a A b B, 0 ≤ e.2 :=
    addScaled_nonneg _ _ _ (div_nonneg hb hpB.le)
      (addScaled_nonneg _ _ _ (div_nonneg ha hpA.le) (by simp) (fun e he => (hGA e he).1)) (fun e he => (hGB e he).1)
  have hmx : ∀ e ∈ blend a A b B, Mixable pf L d x e.1 := by
    intro e he
    rcases addScaled_keys _ _ _ e he with ⟨p, hp, hpe⟩ | ⟨p, hp, hpe⟩
    · rcases addScaled_keys _ _ _ p hp with ⟨q, hq, _⟩ | ⟨q, hq, hqe⟩
      · simp at hq
      · rw [← hpe, ← hqe]; exact (hGA q hq).2
    · rw [← hpe]; exact (hGB p hp).2
  have hav : ∀ q : String → K, average (blend a A b B) (compOf pf L d) q
      = (a * average A (compOf pf L d) q + b * average B (compOf pf L d) q) / (a + b) := by
    intro q
    unfold average
    rw [hsum]
    unfold blend
    rw [weighted_addScaled _ _ (addScaled_sorted _ _ _ SMap.sorted_nil), weighted_addScaled _ _ SMap.sorted_nil,
      weighted_nil]
    congr 1
    ring
  obtain ⟨r', hr', hrule⟩ := mixMu_of pf L d (blend a A b B) x (compOf pf L d) (muOf L x)
    (fun e he => ⟨hnn e he, hmx e he⟩) (by rw [hsum]; exact hab)
  rw [hr']
  congr 1
  refine hrule.unique ⟨?_, ?_, ?_, ?_, ?_, ?_⟩
  · exact hr.energy
  · simp only [meanMix]; rw [hav, hr.coherent, hs.coherent]
  · simp only [meanMix]; rw [hav, hr.compton, hs.compton]
  · simp only [meanMix]; rw [hav, hr.pair, hs.pair]
  · simp only [meanMix]; rw [hav, hr.photoelectric, hs.photoelectric]
  · simp only [meanMix]; rw [hr.total, hs.total]; ring

/-- C31: a material stands for its composition: its coefficients are those of the mixture it is made of. -/
theorem C31_material (pf : String → Outcome (SMap String K)) (hpf : ParserOK pf) (fuel : Nat) (on : Bool)
    (key : EscapeKey K) (ops : List (Op K)) (hobj : ObjectsValid ops) (d : Nat) (name : String) (m : Material K)
    (w x : K) (r : Mix K) (hw : 0 < w)
    (hnf : NotFormula pf (run pf fuel (empty on key) ops) name)
    (hm : (run pf fuel (empty on key) ops).getMaterial name = .ok m)
    (h : (run pf fuel (empty on key) ops).mixMu pf d m.composition x false = .ok r) :
    (run pf fuel (empty on key) ops).mixMu pf (d + 1) [(name, w)] x false = .ok r := by
  have hinv := inv_run pf fuel on key ops
  have hv := matsValid_run pf fuel on key ops hobj
  generalize run pf fuel (empty on key) ops = L at *
  obtain ⟨hG, hp, hr⟩ := mixMu_canon pf hpf L hinv d _ x r h
  have hne : m.composition ≠ [] := by
    intro hh
    rw [hh] at hp
    simp at hp
  obtain ⟨n1, n2, n3⟩ := normalise_props m.composition hne (hv name m hm).comp_pos
  have hGn : ∀ e ∈ normalise m.composition, Mixable pf L d x e.1 := by
    intro e he
    obtain ⟨e', he', rfl⟩ := List.mem_map.1 he
    exact (hG e' he').2
  have hcomp : L.comp pf (d + 1) name = .ok (mixFold (compOf pf L d) (normalise m.composition) []) := by
    rw [comp, formula_of_not pf hpf L hinv name hnf, ok_bind, if_neg (by simp), getMaterial_of_not_throw L name m hm]
    dsimp only
    rw [if_neg (by
      intro hl
      exact hne (List.length_eq_zero_iff.1 (Nat.lt_one_iff.1 hl)))]
    exact mixLoop_fold _ _ _ _ (fun e he => (hGn e he).1) (fun e he => (hGn e he).2.1)
  have hcne : mixFold (compOf pf L d) (normalise m.composition) [] ≠ [] :=
    mixFold_ne_nil _ _ _ (fun e he => (hGn e he).2.1) (Or.inr n3)
  have hck : ∀ p ∈ mixFold (compOf pf L d) (normalise m.composition) [], ElementMu L x p.1 (muOf L x p.1) :=
    mixFold_keys (fun n => ElementMu L x n (muOf L x n)) _ _ _ (fun e he => (hGn e he).2.2) (by simp)
  obtain ⟨r', hr', hrule⟩ := mixMu_of pf L (d + 1) [(name, w)] x
    (fun _ => mixFold (compOf pf L d) (normalise m.composition) []) (muOf L x)
    (by
      intro e he
      simp only [List.mem_singleton] at he
      subst he
      exact ⟨hw.le, hcomp, hcne, hck⟩) (by simpa using hw)
  rw [hr']
  congr 1
  have hav : ∀ q : String → K, average [(name, w)] (fun _ => mixFold (compOf pf L d) (normalise m.composition) []) q
      = average m.composition (compOf pf L d) q := by
    intro q
    unfold average
    rw [weighted_cons, weighted_nil]
    dsimp only
    rw [weighted_mixFold _ _ _ SMap.sorted_nil, weighted_nil, zero_add]
    have : weighted (normalise m.composition) (fun n => weighted (compOf pf L d n) q)
        = weighted m.composition (fun n => weighted (compOf pf L d n) q) / (m.composition.map Prod.snd).sum := by
      rw [← weighted_div]
      unfold weighted normalise SMap.total
      rw [List.map_map]
      congr 1
      apply List.map_congr_left
      intro e _
      simp only [Function.comp]
      ring
    rw [this]
    simp only [List.map_cons, List.map_nil, List.sum_cons, List.sum_nil, add_zero]
    rw [mul_div_cancel_left₀ _ hw.ne']
  refine hrule.unique ⟨hr.energy, ?_, ?_, ?_, ?_, hr.total⟩
  · rw [hav]; exact hr.coherent
  · rw [hav]; exact hr.compton
  · rw [hav]; exact hr.pair
  · rw [hav]; exact hr.photoelectric

/-! ### C31: several energies, names, compositions -/

/-- C31: a list of energies is treated energy by energy. -/
theorem C31_energies (pf : String → Outcome (SMap String K)) (L : Library K) (d : Nat) (input : SMap String K)
    (es : List K) (hes : es ≠ []) (b : Bool) (rs : List (Mix K)) :
    L.mixMus pf d input es b = .ok rs ↔ List.Forall₂ (fun x r => L.mixMu pf d input x b = .ok r) es rs := by
  unfold mixMus mixMu
  cases L.amounts pf d input b with
  | ok a =>
    simp only [ok_bind]
    clear hes
    induction es generalizing rs with
    | nil =>
      simp only [mixList]
      constructor
      · intro h
        injection h with h
        subst h
        exact List.Forall₂.nil
      · intro h
        cases h
        rfl
    | cons x es ih =>
      unfold mixList
      constructor
      · intro h
        obtain ⟨s, hs, h⟩ := bind_eq_ok.1 h
        obtain ⟨r, hr, h⟩ := bind_eq_ok.1 h
        injection h with hfin
        subst hfin
        refine List.Forall₂.cons ?_ ((ih _).1 hr)
        rw [hs]
        rfl
      · intro h
        cases h with
        | cons h1 h2 =>
          obtain ⟨s, hs, h1⟩ := bind_eq_ok.1 h1
          injection h1 with hfin
          rw [hs, ok_bind, (ih _).2 h2, ok_bind, ← hfin]
          rfl
  | throw e =>
    constructor
    · intro h; cases h
    · intro h
      cases h with
      | nil => exact absurd rfl hes
      | cons h1 _ => cases h1
  | ub u =>
    constructor
    · intro h; cases h
    · intro h
      cases h with
      | nil => exact absurd rfl hes
      | cons h1 _ => cases h1
  | diverge =>
    constructor
    · intro h; cases h
    · intro h
      cases h with
      | nil => exact absurd rfl hes
      | cons h1 _ => cases h1

/-- C31: asked by name, an element gives its own coefficients. -/
theorem C31_element_name (pf : String → Outcome (SMap String K)) (L : Library K) (d : Nat) (n : String) (x : K)
    (m : Mu K) (h : ElementMu L x n m) :
    ∃ r, L.nameMu pf d n x = .ok r ∧ r.energy = m.energy ∧ r.coherent = m.coherent ∧ r.compton = m.compton
      ∧ r.pair = m.pair ∧ r.photoelectric = m.photoelectric ∧ r.total = m.total := by
  obtain ⟨e, he, hm⟩ := h
  obtain ⟨i, hi, _⟩ := getElement_dict L n e he
  unfold nameMu
  rw [if_pos (by simp [SMap.mem, hi]), he, ok_bind, hm]
  exact ⟨_, rfl, rfl, rfl, rfl, rfl, rfl, rfl⟩

/-- C31: asked by name, anything else is the mixture of its elements. -/
theorem C31_substance_name (pf : String → Outcome (SMap String K)) (L : Library K) (d : Nat) (n : String) (x : K)
    (hn : ∀ e, L.getElement n ≠ .ok e) (hne : n ≠ "") (hinv : Inv L) :
    L.nameMu pf d n x = (L.comp pf d n >>= fun c =>
      if c = [] then .throw .invalidArgument else L.mixMu pf d c x false) := by
  have hd : L.dict.mem n = false := by
    cases hm : L.dict.find? n with
    | none => simp [SMap.mem, hm]
    | some i =>
      exfalso
      have h1 := (hinv n i).1 hm
      unfold getElementNames at h1
      rw [List.getElem?_map] at h1
      cases he : L.elements[i]? with
      | none => rw [he] at h1; cases h1
      | some e =>
        apply hn e
        have hdef : L.isElementNameDefined n = true := by
          unfold isElementNameDefined
          rw [if_neg (by rw [length_zero_iff]; exact hne)]
          simp [SMap.mem, hm]
        unfold getElement
        rw [if_pos hdef, hm]
        simp [vget, he]
  unfold nameMu
  rw [if_neg (by simp [hd])]
  congr 1
  funext c
  cases c <;> simp

/-- C31, `isComposition`: the amounts are taken as mass fractions of elements. -/
theorem C31_composition (pf : String → Outcome (SMap String K)) (L : Library K) (d : Nat) (input : SMap String K)
    (x : K) (M : String → Mu K) (h : ∀ e ∈ input, ElementMu L x e.1 (M e.1)) :
    ∃ r, L.mixMu pf d input x true = .ok r
      ∧ r.coherent = weighted input (fun n => (M n).coherent) ∧ r.compton = weighted input (fun n => (M n).compton)
      ∧ r.pair = weighted input (fun n => (M n).pair) ∧ r.photoelectric = weighted input (fun n => (M n).photoelectric)
      ∧ r.total = r.coherent + r.compton + r.pair + r.photoelectric := by
  unfold mixMu amounts
  rw [if_pos rfl, ok_bind]
  dsimp only
  rw [mixSum_of L _ x M _ h, ok_bind]
  refine ⟨_, rfl, ?_, ?_, ?_, ?_, rfl⟩ <;> simp

/-- C31 is violated with `isComposition`: neither the sign of the amounts nor the names are looked at, and an element
that is not in the library is undefined behaviour. -/
theorem C31_composition_violated (pf : String → Outcome (SMap String K)) (L : Library K) (d : Nat) (n : String) (w x : K)
    (rest : List (String × K)) (h : L.dict.find? n = none) :
    L.mixMu pf d ((n, w) :: rest) x true = .ub .derefEnd := by
  unfold mixMu amounts
  rw [if_pos rfl, ok_bind]
  dsimp only
  unfold mixSum
  rw [h]
  rfl

/-! ### Examples -/

section examples

attribute [local instance] Element.exampleTrans
local instance : Trig ℚ := ⟨fun _ => 1⟩

/-- An element with tables of coefficients, `c` being its coherent coefficient. -/
def tableElement (n : String) (mass c : ℚ) : LibElement ℚ :=
  { name := n, mass := mass,
    data := Element.run Element.exampleElement (Element.tableOps ++ [.setMass [8, 8] [3, 3] [c, c] [1, 1] []]) }

/-- A library with two such elements and two materials. -/
def mixOps : List (Op ℚ) :=
  [.addElement (tableElement "Fe" 56 1), .addElement (tableElement "O" 16 5),
   .addMaterial "rust" 5 1 "" true, .setMaterialComposition "rust" ["Fe2O3", "O"] [3, 1],
   .addMaterial "mixed" 5 1 "" true, .setMaterialComposition "mixed" ["Fe", "rust"] [1, 1]]

/-- The library of the examples. -/
def mixLibrary : Library ℚ := run examplePf 5 (empty false exampleKey) mixOps

/-- The hypotheses of the theorems of C31 are met, and the average is not trivial. -/
example : (mixLibrary.mixMu examplePf 5 [("Fe", 1), ("rust", 3)] 8 false).bind
      (fun r => .ok (decide (r.coherent = 97 / 40 ∧ r.total = r.coherent + 8)))
    = .ok true
    ∧ (mixLibrary.mixMu examplePf 5 [("Fe", 2), ("rust", 6)] 8 false)
        = (mixLibrary.mixMu examplePf 5 [("Fe", 1), ("rust", 3)] 8 false)
    ∧ (mixLibrary.mixMu examplePf 5 [("Fe", -2), ("rust", 6)] 8 false) = .throw .invalidArgument := by
  decide +kernel

example : mixLibrary.mixMu examplePf 5 [("Fe", 1 / 2), ("rust", 1 / 2)] 8 false
    = mixLibrary.mixMu examplePf 5 [("mixed", 7)] 8 false
    ∧ (mixLibrary.mixMu examplePf 5 [("mixed", 7)] 8 false).isOk = true := by
  decide +kernel

example : NotFormula examplePf mixLibrary "mixed" := ⟨[], by decide +kernel, Or.inl rfl⟩

example : (mixLibrary.mixMu examplePf 5 [("Xx", 1)] 8 true) = .ub .derefEnd
    ∧ (mixLibrary.mixMu examplePf 5 [("Fe", -1)] 8 true).isOk = true
    ∧ (mixLibrary.mixMus examplePf 5 [("Fe", 1)] [8, 9] false).isOk = true
    ∧ (mixLibrary.nameMu examplePf 5 "Fe2O3" 8).isOk = true
    ∧ (mixLibrary.nameMu examplePf 5 "Fe" 8).isOk = true := by
  decide +kernel

end examples

end Library
end Fisx
