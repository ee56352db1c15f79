import Verif.ElementProps
import Verif.ShellTransfer

/-!
# Properties of `fisx::Element`: C16 (cascade), C17 (cascade cache)
-/

set_option linter.unusedSectionVars false

namespace Fisx
namespace Element

variable {K : Type} [Field K] [LinearOrder K] [IsStrictOrderedRing K]

/-! ### The cascade as a linear map -/

/-- Average number of vacancies transferred from one shell to another (0 when the code gives no value). -/
def tval (shells : SMap Str (Shell K)) (k j : Str) : K :=
  match transfer shells k j with
  | .ok v => v
  | _ => 0

/-- The cascade as a function on vacancy distributions. -/
def cascF (T : Str → Str → K) (ks : List Str) (v : Str → K) : Str → K :=
  match ks with
  | [] => v
  | k :: ks => cascF T ks (fun j => if j ∈ ks then v j + T k j * v k else v j)

theorem cascF_notMem (T : Str → Str → K) (ks : List Str) (v : Str → K) (j : Str) (h : j ∉ ks) :
    cascF T ks v j = v j := by
  induction ks generalizing v with
  | nil => rfl
  | cons k ks ih =>
    simp only [List.mem_cons, not_or] at h
    unfold cascF
    rw [ih _ h.2]
    simp [h.2]

theorem cascF_head (T : Str → Str → K) (k : Str) (ks : List Str) (v : Str → K) (hnd : (k :: ks).Nodup) :
    cascF T (k :: ks) v k = v k := by
  unfold cascF
  have hk : k ∉ ks := (List.nodup_cons.1 hnd).1
  rw [cascF_notMem T ks _ k hk]
  simp [hk]

theorem cascF_linear (T : Str → Str → K) (ks : List Str) (v w : Str → K) (a b : K) (j : Str) :
    cascF T ks (fun i => a * v i + b * w i) j = a * cascF T ks v j + b * cascF T ks w j := by
  induction ks generalizing v w with
  | nil => rfl
  | cons k ks ih =>
    unfold cascF
    rw [← ih]
    congr 1
    funext i
    split <;> ring

theorem cascF_congr (T : Str → Str → K) (ks : List Str) (v w : Str → K) (h : ∀ i ∈ ks, v i = w i) (j : Str)
    (hj : j ∈ ks) : cascF T ks v j = cascF T ks w j := by
  induction ks generalizing v w with
  | nil => simp at hj
  | cons k ks ih =>
    unfold cascF
    by_cases hjk : j ∈ ks
    · apply ih _ _ _ hjk
      intro i hi
      simp only [hi, if_true]
      rw [h i (by simp [hi]), h k (by simp)]
    · rw [cascF_notMem T ks _ j hjk, cascF_notMem T ks _ j hjk]
      simp only [hjk, if_false]
      exact h j hj

theorem cascF_ge (T : Str → Str → K) (ks : List Str) (v : Str → K) (hT : ∀ i ∈ ks, ∀ j ∈ ks, 0 ≤ T i j)
    (hv : ∀ i, 0 ≤ v i) (j : Str) : v j ≤ cascF T ks v j := by
  induction ks generalizing v with
  | nil => exact le_refl _
  | cons k ks ih =>
    unfold cascF
    have h1 : ∀ i, v i ≤ (fun j => if j ∈ ks then v j + T k j * v k else v j) i := by
      intro i
      simp only
      split
      · rename_i hi
        have := mul_nonneg (hT k (by simp) i (by simp [hi])) (hv k); linarith
      · exact le_refl _
    exact le_trans (h1 j) (ih _ (fun i hi j hj => hT i (by simp [hi]) j (by simp [hj]))
      (fun i => le_trans (hv i) (h1 i)))

/-- The balance equation of a cascade: what a shell ends up with is what it had plus what it gets from the shells
before it. -/
theorem cascF_balance (T : Str → Str → K) (ks : List Str) (v : Str → K) (hnd : ks.Nodup) (n : Nat)
    (hn : n < ks.length) :
    cascF T ks v ks[n] = v ks[n] + ((ks.take n).map (fun i => T i ks[n] * cascF T ks v i)).sum := by
  induction ks generalizing v n with
  | nil => simp at hn
  | cons k ks ih =>
    have hnd' := (List.nodup_cons.1 hnd)
    cases n with
    | zero => simp only [List.getElem_cons_zero, List.take_zero, List.map_nil, List.sum_nil, add_zero]
              exact cascF_head T k ks v hnd
    | succ n =>
      simp only [List.length_cons, Nat.add_lt_add_iff_right] at hn
      have := ih (fun j => if j ∈ ks then v j + T k j * v k else v j) hnd'.2 n hn
      simp only [List.getElem_cons_succ, List.take_succ_cons, List.map_cons, List.sum_cons]
      rw [cascF_head T k ks v hnd]
      have e1 : ∀ i, cascF T (k :: ks) v i = cascF T ks (fun j => if j ∈ ks then v j + T k j * v k else v j) i :=
        fun i => rfl
      rw [e1, this]
      simp only [List.getElem_mem, if_true]
      simp only [e1]
      ring

/-- Sum of the contributions of unit vacancies. -/
theorem cascF_sum (T : Str → Str → K) (ks : List Str) (l : List Str) (c : Str → K) (j : Str) :
    cascF T ks (fun i => (l.map (fun s => c s * (if s = i then 1 else 0))).sum) j
      = (l.map (fun s => c s * cascF T ks (fun i => if s = i then 1 else 0) j)).sum := by
  induction l with
  | nil =>
    simp only [List.map_nil, List.sum_nil]
    have := cascF_linear T ks (fun _ => 0) (fun _ => 0) 0 0 j
    simpa using this
  | cons s l ih =>
    simp only [List.map_cons, List.sum_cons]
    rw [← ih]
    have := cascF_linear T ks (fun i => if s = i then 1 else 0)
      (fun i => (l.map (fun s => c s * (if s = i then 1 else 0))).sum) (c s) 1 j
    simp only [one_mul] at this
    exact this

theorem sum_delta (ks : List Str) (hnd : ks.Nodup) (s : Str) (g : Str → K) :
    (ks.map (fun i => if s = i then g i else 0)).sum = if s ∈ ks then g s else 0 := by
  induction ks with
  | nil => simp
  | cons k ks ih =>
    have h := List.nodup_cons.1 hnd
    simp only [List.map_cons, List.sum_cons, ih h.2]
    by_cases hs : s = k
    · subst hs; simp [h.1]
    · simp [hs]

/-- A distribution is the superposition of its vacancies. -/
theorem cascF_superpose (T : Str → Str → K) (ks : List Str) (hnd : ks.Nodup) (v : Str → K) (j : Str)
    (hj : j ∈ ks) :
    cascF T ks v j = (ks.map (fun s => v s * cascF T ks (fun i => if s = i then 1 else 0) j)).sum := by
  rw [← cascF_sum]
  apply cascF_congr _ _ _ _ _ _ hj
  intro i hi
  have : (ks.map (fun s => v s * (if s = i then 1 else 0)))
      = ks.map (fun s => if i = s then v s else 0) := by
    apply List.map_congr_left
    intro s _
    by_cases h : s = i
    · simp [h]
    · simp [h, Ne.symm h]
  rw [this, sum_delta ks hnd i v]
  simp [hi]

/-! ### The code computes this map -/

/-- Transfers are not negative. -/
def TransfersNonneg (shells : SMap Str (Shell K)) : Prop :=
  ∀ k, ∀ j ∈ keys, ∀ t, transfer shells k j = .ok t → 0 ≤ t

theorem tval_nonneg {shells : SMap Str (Shell K)} (h : TransfersNonneg shells) (k j : Str) (hj : j ∈ keys) :
    0 ≤ tval shells k j := by
  unfold tval
  split
  · rename_i v hv; exact h k j hj v hv
  · exact le_refl _

theorem addTransfers_iff (shells : SMap Str (Shell K)) (k : Str) (x : K) (ks : List Str) (v : Str → K)
    (r : List K) :
    addTransfers shells k x ks (ks.map v) = .ok r ↔
      (∀ j ∈ ks, ∃ t, transfer shells k j = .ok t) ∧ r = ks.map (fun j => v j + tval shells k j * x) := by
  induction ks generalizing r with
  | nil => simp [addTransfers, eq_comm]
  | cons j ks ih =>
    simp only [List.map_cons, addTransfers, Outcome.bind_eq_ok, ih, Outcome.pure_eq, Outcome.ok.injEq,
      List.mem_cons, forall_eq_or_imp]
    constructor
    · rintro ⟨t, ht, r', ⟨h1, rfl⟩, rfl⟩
      refine ⟨⟨⟨t, ht⟩, h1⟩, ?_⟩
      simp [tval, ht]
    · rintro ⟨⟨⟨t, ht⟩, h1⟩, rfl⟩
      exact ⟨t, ht, _, ⟨h1, rfl⟩, by simp [tval, ht]⟩

theorem cascadeLoop_iff {shells : SMap Str (Shell K)} (hT : TransfersNonneg shells) (ks : List Str)
    (hks : ∀ k ∈ ks, k ∈ keys) (hnd : ks.Nodup) (v : Str → K) (hv : ∀ i ∈ ks, 0 ≤ v i) (r : List K) :
    cascadeLoop shells ks (ks.map v) = .ok r ↔
      ks.Pairwise (fun i j => 0 < cascF (tval shells) ks v i → ∃ t, transfer shells i j = .ok t) ∧
      r = ks.map (cascF (tval shells) ks v) := by
  induction ks generalizing v r with
  | nil => simp [cascadeLoop, eq_comm]
  | cons k ks ih =>
    have hnd' := List.nodup_cons.1 hnd
    have hks' : ∀ k ∈ ks, k ∈ keys := fun x hx => hks x (by simp [hx])
    set v' : Str → K := fun j => if j ∈ ks then v j + tval shells k j * v k else v j with hv'
    have hv'0 : ∀ i ∈ ks, 0 ≤ v' i := by
      intro i hi
      simp only [hv', hi, if_true]
      have := mul_nonneg (tval_nonneg hT k i (hks i (by simp [hi]))) (hv k (by simp))
      have := hv i (by simp [hi])
      linarith
    have hC : cascF (tval shells) (k :: ks) v = cascF (tval shells) ks v' := rfl
    have hk : cascF (tval shells) (k :: ks) v k = v k := cascF_head _ _ _ _ hnd
    have hmap : ks.map (fun j => v j + tval shells k j * v k) = ks.map v' := by
      apply List.map_congr_left
      intro j hj
      simp [hv', hj]
    simp only [List.map_cons, cascadeLoop, Outcome.bind_eq_ok, Outcome.pure_eq, Outcome.ok.injEq,
      List.pairwise_cons, hk]
    rw [hC]
    constructor
    · rintro ⟨vs', h1, r', h2, rfl⟩
      unfold propagate at h1
      split at h1
      · rw [addTransfers_iff] at h1
        obtain ⟨h3, rfl⟩ := h1
        rw [hmap, ih hks' hnd'.2 v' hv'0] at h2
        exact ⟨⟨fun j hj _ => h3 j hj, h2.1⟩, by rw [h2.2]⟩
      · rename_i hneg
        cases h1
        have hz : v k = 0 := le_antisymm (not_lt.1 hneg) (hv k (by simp))
        have : ks.map v = ks.map v' := by rw [← hmap]; simp [hz]
        rw [this, ih hks' hnd'.2 v' hv'0] at h2
        exact ⟨⟨fun j hj h => absurd h hneg, h2.1⟩, by rw [h2.2]⟩
    · rintro ⟨⟨h1, h2⟩, rfl⟩
      by_cases hpos : v k > 0
      · refine ⟨ks.map v', ?_, ks.map (cascF (tval shells) ks v'), (ih hks' hnd'.2 v' hv'0 _).2 ⟨h2, rfl⟩, rfl⟩
        unfold propagate
        rw [if_pos hpos, addTransfers_iff]
        exact ⟨fun j hj => h1 j hj hpos, hmap.symm⟩
      · refine ⟨ks.map v, ?_, ks.map (cascF (tval shells) ks v'), ?_, rfl⟩
        · unfold propagate; rw [if_neg hpos]
        · have hz : v k = 0 := le_antisymm (not_lt.1 hpos) (hv k (by simp))
          have : ks.map v = ks.map v' := by rw [← hmap]; simp [hz]
          rw [this]
          exact (ih hks' hnd'.2 v' hv'0 _).2 ⟨h2, rfl⟩

/-- The shells taking part in a cascade, from the innermost. -/
def activeKeys (e : Element K) : List Str := keys.take e.shells.length

theorem activeKeys_nodup (e : Element K) : (activeKeys e).Nodup := by
  have : keys.Nodup := by decide
  exact this.sublist (List.take_sublist _ _)

theorem getCascade_iff {e : Element K} (hT : TransfersNonneg e.shells) {d : SMap Str K}
    (hd : ∀ p ∈ d, 0 ≤ p.2) (f : SMap Str K) :
    e.getCascade d = .ok f ↔
      (activeKeys e).Pairwise (fun i j => 0 < cascF (tval e.shells) (activeKeys e) (at0 d) i →
        ∃ t, transfer e.shells i j = .ok t) ∧
      f = (activeKeys e).map (fun k => (k, cascF (tval e.shells) (activeKeys e) (at0 d) k)) := by
  have hv : ∀ i, 0 ≤ at0 d i := by
    intro i
    unfold at0
    cases h : d.find? i with
    | none => exact le_refl _
    | some v => exact hd _ (SMap.mem_of_find? h)
  unfold getCascade initialVector
  rw [Outcome.bind_eq_ok]
  have hk : keys.take e.shells.length = activeKeys e := rfl
  rw [hk]
  have hzip : ∀ g : Str → K, (activeKeys e).zip ((activeKeys e).map g) = (activeKeys e).map (fun k => (k, g k)) := by
    intro g
    induction activeKeys e with
    | nil => rfl
    | cons a l ih => simp [ih]
  constructor
  · rintro ⟨r, hr, hf⟩
    rw [cascadeLoop_iff hT (activeKeys e) (fun k hk => List.mem_of_mem_take hk) (activeKeys_nodup e) _ (fun i _ => hv i)] at hr
    refine ⟨hr.1, ?_⟩
    simp only [Outcome.pure_eq, Outcome.ok.injEq] at hf
    rw [← hf, hr.2, hzip]
  · rintro ⟨h1, rfl⟩
    refine ⟨_, (cascadeLoop_iff hT (activeKeys e) (fun k hk => List.mem_of_mem_take hk) (activeKeys_nodup e) _ (fun i _ => hv i) _).2 ⟨h1, rfl⟩, ?_⟩
    rw [hzip]
    rfl

theorem at0_map (ks : List Str) (g : Str → K) (k : Str) (hk : k ∈ ks) :
    at0 (ks.map (fun k => (k, g k))) k = g k := by
  induction ks with
  | nil => simp at hk
  | cons a l ih =>
    unfold at0
    rw [List.map_cons, SMap.find?_cons]
    by_cases h : a = k
    · simp [h]
    · simp only [h, if_false]
      exact ih (by simpa [Ne.symm h] using hk)

theorem at0_map_notMem (ks : List Str) (g : Str → K) (k : Str) (hk : k ∉ ks) :
    at0 (ks.map (fun k => (k, g k))) k = 0 := by
  unfold at0
  have : SMap.find? (ks.map (fun k => (k, g k))) k = none := by
    rw [SMap.find?_eq_none_iff]
    intro p hp
    obtain ⟨s, hs, rfl⟩ := List.mem_map.1 hp
    rintro rfl
    exact hk hs
  simp [this]

/-! ## C16 -/

/-- **C16** (balance and monotony) The cascade-modified distribution lists the shells of the element from the
innermost; each one ends with its own vacancies plus those transferred by the inner shells, hence with no fewer
vacancies than it had. -/
theorem C16_balance {e : Element K} (hT : TransfersNonneg e.shells) {d f : SMap Str K}
    (hd : ∀ p ∈ d, 0 ≤ p.2) (h : e.getCascade d = .ok f) :
    f.map Prod.fst = keys.take e.shells.length ∧
    (∀ n (hn : n < (keys.take e.shells.length).length),
      let j := (keys.take e.shells.length)[n]
      at0 f j = at0 d j + ((keys.take n).map (fun i => tval e.shells i j * at0 f i)).sum) ∧
    ∀ k ∈ keys.take e.shells.length, at0 d k ≤ at0 f k := by
  obtain ⟨_, rfl⟩ := (getCascade_iff hT hd f).1 h
  refine ⟨?_, ?_, ?_⟩
  · rw [List.map_map]
    conv_rhs => rw [← List.map_id (keys.take e.shells.length)]
    rfl
  · intro n hn j
    have hn' : n < e.shells.length := by
      rw [List.length_take] at hn; omega
    have hb := cascF_balance (tval e.shells) (activeKeys e) (at0 d) (activeKeys_nodup e) n hn
    have hj : j ∈ activeKeys e := List.getElem_mem _
    rw [at0_map _ _ _ hj]
    have ht : (activeKeys e).take n = keys.take n := by
      unfold activeKeys
      rw [List.take_take, min_eq_left (le_of_lt hn')]
    rw [ht] at hb
    refine hb.trans ?_
    congr 2
    apply List.map_congr_left
    intro i hi
    have : i ∈ activeKeys e := by
      rw [← ht] at hi
      exact List.mem_of_mem_take hi
    rw [at0_map _ _ _ this]
    rfl
  · intro k (hk : k ∈ activeKeys e)
    rw [at0_map _ _ _ hk]
    apply cascF_ge _ _ _ (fun i hi j hj => tval_nonneg hT i j (List.mem_of_mem_take hj))
    intro i
    unfold at0
    cases h : d.find? i with
    | none => exact le_refl _
    | some v => exact hd _ (SMap.mem_of_find? h)

/-- **C16** (linearity) The cascade of `a d1 + b d2` is `a` times the one of `d1` plus `b` times the one of `d2`. -/
theorem C16_linear {e : Element K} (hT : TransfersNonneg e.shells) {d1 d2 d f1 f2 : SMap Str K}
    (hd1 : ∀ p ∈ d1, 0 ≤ p.2) (hd2 : ∀ p ∈ d2, 0 ≤ p.2) (hd : ∀ p ∈ d, 0 ≤ p.2) (a b : K)
    (ha : 0 ≤ a) (hb : 0 ≤ b) (hcomb : ∀ k, at0 d k = a * at0 d1 k + b * at0 d2 k)
    (h1 : e.getCascade d1 = .ok f1) (h2 : e.getCascade d2 = .ok f2) :
    ∃ f, e.getCascade d = .ok f ∧ ∀ k, at0 f k = a * at0 f1 k + b * at0 f2 k := by
  obtain ⟨p1, rfl⟩ := (getCascade_iff hT hd1 f1).1 h1
  obtain ⟨p2, rfl⟩ := (getCascade_iff hT hd2 f2).1 h2
  have hfun : at0 d = fun k => a * at0 d1 k + b * at0 d2 k := funext hcomb
  have hlin : ∀ j, cascF (tval e.shells) (activeKeys e) (at0 d) j
      = a * cascF (tval e.shells) (activeKeys e) (at0 d1) j
        + b * cascF (tval e.shells) (activeKeys e) (at0 d2) j := by
    intro j; rw [hfun]; exact cascF_linear _ _ _ _ _ _ _
  refine ⟨_, (getCascade_iff hT hd _).2 ⟨?_, rfl⟩, ?_⟩
  · have := p1.and p2
    refine this.imp ?_
    rintro i j ⟨q1, q2⟩ hpos
    rw [hlin i] at hpos
    by_cases c1 : 0 < cascF (tval e.shells) (activeKeys e) (at0 d1) i
    · exact q1 c1
    · by_cases c2 : 0 < cascF (tval e.shells) (activeKeys e) (at0 d2) i
      · exact q2 c2
      · exfalso
        have e1 := mul_nonpos_of_nonneg_of_nonpos ha (not_lt.1 c1)
        have e2 := mul_nonpos_of_nonneg_of_nonpos hb (not_lt.1 c2)
        linarith
  · intro k
    by_cases hk : k ∈ activeKeys e
    · rw [at0_map _ _ _ hk, at0_map _ _ _ hk, at0_map _ _ _ hk]; exact hlin k
    · rw [at0_map_notMem _ _ _ hk, at0_map_notMem _ _ _ hk, at0_map_notMem _ _ _ hk]; ring

theorem cascF_prefix (T : Str → Str → K) (l1 l2 : List Str) (v : Str → K) (hnd : (l1 ++ l2).Nodup) (j : Str)
    (hj : j ∈ l1) : cascF T (l1 ++ l2) v j = cascF T l1 v j := by
  induction l1 generalizing v with
  | nil => simp at hj
  | cons k l1 ih =>
    rw [List.cons_append]
    have h := List.nodup_cons.1 (by simpa using hnd : (k :: (l1 ++ l2)).Nodup)
    rcases List.mem_cons.1 hj with rfl | hj1
    · rw [cascF_head _ _ _ _ (by simpa using hnd)]
      rw [cascF_head _ _ _ _ (by
        rw [List.nodup_cons]
        exact ⟨fun hh => h.1 (List.mem_append_left _ hh), h.2.sublist (List.sublist_append_left _ _)⟩)]
    · show cascF T (l1 ++ l2) _ j = cascF T l1 _ j
      rw [ih _ h.2 hj1]
      apply cascF_congr _ _ _ _ _ _ hj1
      intro i hi
      simp [hi]

theorem cascF_congrT (T T' : Str → Str → K) (ks : List Str) (v : Str → K) (j : Str) (hj : j ∈ ks)
    (hnd : ks.Nodup) (h : ks.Pairwise (fun i l => T i l = T' i l)) : cascF T ks v j = cascF T' ks v j := by
  induction ks generalizing v with
  | nil => simp at hj
  | cons k ks ih =>
    have hp := List.pairwise_cons.1 h
    have hn := List.nodup_cons.1 hnd
    by_cases hjk : j ∈ ks
    · show cascF T ks _ j = cascF T' ks _ j
      rw [ih _ hjk hn.2 hp.2]
      apply cascF_congr _ _ _ _ _ _ hjk
      intro i hi
      simp only [hi, if_true]
      rw [hp.1 i hi]
    · have : j = k := by simpa [hjk] using hj
      subst this
      rw [cascF_head _ _ _ _ hnd, cascF_head _ _ _ _ hnd]

/-- **C16** (causality) The vacancies a shell ends with depend only on the initial vacancies of that shell and of
the inner ones, and on the data of the inner shells: nothing happening in outer shells matters. -/
theorem C16_causal {e e' : Element K} (hT : TransfersNonneg e.shells) (hT' : TransfersNonneg e'.shells)
    {d d' f f' : SMap Str K} (hd : ∀ p ∈ d, 0 ≤ p.2) (hd' : ∀ p ∈ d', 0 ≤ p.2)
    (h : e.getCascade d = .ok f) (h' : e'.getCascade d' = .ok f')
    (n : Nat) (hl : n < e.shells.length) (hl' : n < e'.shells.length)
    (hinit : ∀ k ∈ keys.take (n + 1), at0 d k = at0 d' k)
    (hdata : ∀ k ∈ keys.take n, e.shells.find? k = e'.shells.find? k) :
    ∀ k ∈ keys.take (n + 1), at0 f k = at0 f' k := by
  obtain ⟨_, rfl⟩ := (getCascade_iff hT hd f).1 h
  obtain ⟨_, rfl⟩ := (getCascade_iff hT' hd' f').1 h'
  intro k hk
  have hndk : keys.Nodup := by decide
  have split : ∀ m, n < m → keys.take m = keys.take (n + 1) ++ (keys.drop (n + 1)).take (m - (n + 1)) := by
    intro m hm
    have hm' : m = (n + 1) + (m - (n + 1)) := by omega
    conv_lhs => rw [hm', List.take_add]
  have key : ∀ (g : Element K) (c : Str → K), n < g.shells.length →
      cascF (tval g.shells) (activeKeys g) c k = cascF (tval g.shells) (keys.take (n + 1)) c k := by
    intro g c hg
    unfold activeKeys
    have hs := split g.shells.length hg
    have hnd2 : (keys.take (n + 1) ++ (keys.drop (n + 1)).take (g.shells.length - (n + 1))).Nodup := by
      rw [← hs]; exact hndk.sublist (List.take_sublist _ _)
    rw [hs]
    exact cascF_prefix _ _ _ _ hnd2 k hk
  have hmem : ∀ g : Element K, n < g.shells.length → k ∈ activeKeys g := by
    intro g hg
    unfold activeKeys
    rw [split _ hg]
    exact List.mem_append_left _ hk
  rw [at0_map _ _ _ (hmem e hl), at0_map _ _ _ (hmem e' hl'), key e _ hl, key e' _ hl']
  rw [cascF_congr _ _ _ _ hinit k hk]
  apply cascF_congrT _ _ _ _ _ hk (hndk.sublist (List.take_sublist _ _))
  rw [List.pairwise_iff_getElem]
  intro i j hi hj hij
  have hin : i < n := by
    rw [List.length_take] at hj; omega
  have : (keys.take (n + 1))[i] ∈ keys.take n := by
    rw [List.getElem_take]
    rw [List.mem_take_iff_getElem]
    refine ⟨i, ?_, rfl⟩
    rw [List.length_take] at hi
    omega
  unfold tval transfer
  rw [hdata _ this]

/-- Shell data that make sense: reached by valid calls, with non-negative yields adding up to at most one and
non-negative rates not above their TOTAL (the hypotheses of `C15_bounded`). -/
def SensibleShell (s : Shell K) : Prop :=
  ∃ name s0 ops, Shell.mk? name = .ok s0 ∧ (∀ op ∈ ops, Shell.Op.Valid op) ∧ s = Shell.run s0 ops ∧
    (∀ e ∈ s.constants, 0 ≤ e.2) ∧ SMap.total s.constants ≤ 1 ∧ (∀ e ∈ s.nonradiative, 0 ≤ e.2) ∧
    Shell.rateSum s.nonradiative ≤ (s.nonradiative.find? Shell.total).getD 0

/-- The hypothesis of the theorems on the cascade holds for sensible shells. -/
theorem C16_transfers_nonneg {shells : SMap Str (Shell K)}
    (h : ∀ k s, shells.find? k = some s → SensibleShell s) : TransfersNonneg shells := by
  intro k j hj t ht
  unfold transfer at ht
  cases hs : shells.find? k with
  | none => rw [hs] at ht; cases ht
  | some s =>
    rw [hs] at ht
    simp only [Outcome.bind_eq_ok, Outcome.pure_eq, Outcome.ok.injEq] at ht
    obtain ⟨tr, htr, rfl⟩ := ht
    obtain ⟨name, s0, ops, hmk, hops, rfl, h1, h2, h3, h4⟩ := h k s hs
    have hlen := (Shell.direct_ok htr).1
    have hAL : "AL".toList ≠ j := by rintro rfl; revert hj; decide
    have := (Shell.C15_bounded hmk ops hops h1 h2 h3 h4 [j] ⟨by simp, by simpa using hlen, by simpa using hAL⟩
      (fun _ => tr) (by simpa using htr)).1 j (by simp)
    unfold Shell.Transfer.sum
    have h5 := SMap.total_nonneg this.2.2
    linarith [this.1, this.2.1]

/-! ## C17 -/

/-- The fluorescence yield as a number. -/
def yieldOf (s : Shell K) : K := (s.constants.find? "omega".toList).getD 0

theorem yield_ok {s : Shell K} {w : K} (h : s.getFluorescenceYield = .ok w) : yieldOf s = w := by
  unfold Shell.getFluorescenceYield at h
  unfold yieldOf
  split at h
  · rename_i c hc; cases h; rw [hc]; rfl
  · cases h

/-- Energy of a line as a number. -/
def lineE (e : Element K) (k t : Str) : K :=
  match lineEnergy e k t with
  | .ok v => v
  | _ => 0

theorem lineE_ok {e : Element K} {k t : Str} {v : K} (h : lineEnergy e k t = .ok v) : lineE e k t = v := by
  unfold lineE; rw [h]

/-- Lines of one shell: when the call succeeds and what it gives. -/
theorem linesOfShell_iff (e : Element K) (k : Str) (s : Shell K) (v : K) (ratios : SMap Str K)
    (acc out : SMap Str (Line K)) :
    linesOfShell e true k s v ratios acc = .ok out ↔
      (ratios ≠ [] → ∃ w, s.getFluorescenceYield = .ok w) ∧
      (∀ p ∈ ratios, 0 < p.2 * v * yieldOf s → ∃ en, lineEnergy e k p.1 = .ok en) ∧
      out = ratios.foldl (fun a p => if 0 < p.2 * v * yieldOf s then
        SMap.insert a p.1 { energy := lineE e k p.1, rate := p.2 * v * yieldOf s } else a) acc := by
  induction ratios generalizing acc with
  | nil => simp [linesOfShell, eq_comm]
  | cons p r ih =>
    obtain ⟨t, x⟩ := p
    simp only [linesOfShell, Outcome.bind_eq_ok, lineRate, if_true, List.mem_cons, List.foldl_cons]
    constructor
    · rintro ⟨rate, ⟨w, hw, hrate⟩, h⟩
      have hy := yield_ok hw
      simp only [Outcome.pure_eq, Outcome.ok.injEq] at hrate
      subst hrate
      rw [← hy] at h
      split at h
      · rename_i hpos
        rw [Outcome.bind_eq_ok] at h
        obtain ⟨en, hen, h⟩ := h
        obtain ⟨_, h2, h3⟩ := (ih _).1 h
        refine ⟨fun _ => ⟨w, hw⟩, ?_, ?_⟩
        · rintro q (rfl | hq) hp
          · exact ⟨en, hen⟩
          · exact h2 q hq hp
        · rw [h3, if_pos hpos, lineE_ok hen]
      · rename_i hneg
        obtain ⟨_, h2, h3⟩ := (ih _).1 h
        refine ⟨fun _ => ⟨w, hw⟩, ?_, ?_⟩
        · rintro q (rfl | hq) hp
          · exact absurd hp hneg
          · exact h2 q hq hp
        · rw [h3, if_neg hneg]
    · rintro ⟨h1, h2, h3⟩
      obtain ⟨w, hw⟩ := h1 (by simp)
      have hy := yield_ok hw
      refine ⟨x * v * yieldOf s, ⟨w, hw, by rw [← hy]; rfl⟩, ?_⟩
      split
      · rename_i hpos
        obtain ⟨en, hen⟩ := h2 (t, x) (Or.inl rfl) hpos
        rw [Outcome.bind_eq_ok]
        refine ⟨en, hen, (ih _).2 ⟨fun _ => ⟨w, hw⟩, fun q hq => h2 q (Or.inr hq), ?_⟩⟩
        rw [h3, if_pos hpos, lineE_ok hen]
      · rename_i hneg
        refine (ih _).2 ⟨fun _ => ⟨w, hw⟩, fun q hq => h2 q (Or.inr hq), ?_⟩
        rw [h3, if_neg hneg]

/-- Lookup in a fold of conditional insertions with distinct keys. -/
theorem foldl_cond_find {ν ω : Type} (l : List (Str × ν)) (c : Str × ν → Prop) [DecidablePred c]
    (g : Str × ν → ω) (acc : SMap Str ω) (hnd : (l.map Prod.fst).Nodup) (t : Str) :
    (∀ x, (t, x) ∈ l → SMap.find? (l.foldl (fun a p => if c p then SMap.insert a p.1 (g p) else a) acc) t
      = if c (t, x) then some (g (t, x)) else acc.find? t) ∧
    ((∀ x, (t, x) ∉ l) →
      SMap.find? (l.foldl (fun a p => if c p then SMap.insert a p.1 (g p) else a) acc) t = acc.find? t) := by
  induction l generalizing acc with
  | nil => simp
  | cons p r ih =>
    obtain ⟨t', y⟩ := p
    simp only [List.map_cons, List.nodup_cons] at hnd
    have ih' := ih (if c (t', y) then SMap.insert acc t' (g (t', y)) else acc) hnd.2
    constructor
    · intro x hx
      rcases List.mem_cons.1 hx with h | h
      · cases h
        have hno : ∀ z, (t, z) ∉ r := by
          intro z hz
          exact hnd.1 (List.mem_map.2 ⟨(t, z), hz, rfl⟩)
        rw [List.foldl_cons, ih'.2 hno]
        split
        · rw [SMap.find?_insert, if_pos rfl]
        · rfl
      · have hne : t' ≠ t := by
          rintro rfl
          exact hnd.1 (List.mem_map.2 ⟨(t', x), h, rfl⟩)
        rw [List.foldl_cons, ih'.1 x h]
        split
        · rfl
        · split
          · rw [SMap.find?_insert, if_neg hne]
          · rfl
    · intro hno
      have hne : t' ≠ t := by
        rintro rfl
        exact hno y (by simp)
      rw [List.foldl_cons, ih'.2 (fun x hx => hno x (by simp [hx]))]
      split
      · rw [SMap.find?_insert, if_neg hne]
      · rfl

theorem foldl_cond_sorted {ν ω : Type} (l : List (Str × ν)) (c : Str × ν → Prop) [DecidablePred c]
    (g : Str × ν → ω) (acc : SMap Str ω) (hs : SMap.Sorted acc) :
    SMap.Sorted (l.foldl (fun a p => if c p then SMap.insert a p.1 (g p) else a) acc) := by
  induction l generalizing acc with
  | nil => exact hs
  | cons p r ih =>
    apply ih
    dsimp only
    split
    · exact SMap.insert_sorted hs _ _
    · exact hs

/-- What the code stores for the lines of shell `k` holding `v` vacancies. -/
def shellLines (e : Element K) (k : Str) (s : Shell K) (v : K) (acc : SMap Str (Line K)) : SMap Str (Line K) :=
  s.fluorescence.foldl (fun a p => if 0 < p.2 * v * yieldOf s then
        SMap.insert a p.1 { energy := lineE e k p.1, rate := p.2 * v * yieldOf s } else a) acc

/-- Condition for the lines of a shell to be computed. -/
def ShellOk (e : Element K) (k : Str) (s : Shell K) (v : K) : Prop :=
  (s.fluorescence ≠ [] → ∃ w, s.getFluorescenceYield = .ok w) ∧
  (∀ p ∈ s.fluorescence, 0 < p.2 * v * yieldOf s → ∃ en, lineEnergy e k p.1 = .ok en)

theorem linesLoop_iff (e : Element K) (dist : List (Str × K)) (acc out : SMap Str (Line K)) :
    linesLoop e true dist acc = .ok out ↔
      (∀ p ∈ dist, ∃ s, e.shells.find? p.1 = some s ∧ ShellOk e p.1 s p.2) ∧
      out = dist.foldl (fun a p => match e.shells.find? p.1 with
        | some s => shellLines e p.1 s p.2 a
        | none => a) acc := by
  induction dist generalizing acc with
  | nil => simp [linesLoop, eq_comm]
  | cons p r ih =>
    obtain ⟨k, v⟩ := p
    simp only [linesLoop, List.mem_cons, List.foldl_cons]
    cases hs : e.shells.find? k with
    | none =>
      simp only [reduceCtorEq, false_iff, not_and]
      intro h
      obtain ⟨s, h1, _⟩ := h (k, v) (Or.inl rfl)
      rw [hs] at h1; cases h1
    | some s =>
      simp only [Outcome.bind_eq_ok]
      constructor
      · rintro ⟨a, h1, h2⟩
        rw [linesOfShell_iff] at h1
        obtain ⟨q1, q2, rfl⟩ := h1
        obtain ⟨q3, q4⟩ := (ih _).1 h2
        refine ⟨?_, q4⟩
        rintro p (rfl | hp)
        · exact ⟨s, hs, q1, q2⟩
        · exact q3 p hp
      · rintro ⟨h1, h2⟩
        obtain ⟨s', g1, g2⟩ := h1 (k, v) (Or.inl rfl)
        rw [hs] at g1
        cases g1
        exact ⟨_, (linesOfShell_iff _ _ _ _ _ _ _).2 ⟨g2.1, g2.2, rfl⟩,
          (ih _).2 ⟨fun p hp => h1 p (Or.inr hp), h2⟩⟩

/-- No label belongs to two shells, and the ratios of a shell are a map of non-negative numbers. -/
structure CleanShells (shells : SMap Str (Shell K)) : Prop where
  sorted : ∀ k s, shells.find? k = some s → SMap.Sorted s.fluorescence
  nonneg : ∀ k s, shells.find? k = some s → ∀ p ∈ s.fluorescence, 0 ≤ p.2
  yield_nonneg : ∀ k s, shells.find? k = some s → 0 ≤ yieldOf s
  disjoint : ∀ k s k' s' t r r', shells.find? k = some s → shells.find? k' = some s' →
    (t, r) ∈ s.fluorescence → (t, r') ∈ s'.fluorescence → k = k'

/-- The lines emitted by a distribution. -/
def distLines (e : Element K) (dist : List (Str × K)) (acc : SMap Str (Line K)) : SMap Str (Line K) :=
  dist.foldl (fun a p => match e.shells.find? p.1 with
        | some s => shellLines e p.1 s p.2 a
        | none => a) acc

theorem distLines_sorted (e : Element K) (dist : List (Str × K)) (acc : SMap Str (Line K))
    (h : SMap.Sorted acc) : SMap.Sorted (distLines e dist acc) := by
  induction dist generalizing acc with
  | nil => exact h
  | cons p r ih =>
    apply ih
    dsimp only
    split
    · exact foldl_cond_sorted _ _ _ _ h
    · exact h

/-- The line `t` of shell `k` in the lines emitted by a distribution giving `v` vacancies to `k`. -/
theorem distLines_find {e : Element K} (hc : CleanShells e.shells) (ks : List Str) (hnd : ks.Nodup)
    (v : Str → K) (acc : SMap Str (Line K)) (k : Str) (s : Shell K) (hs : e.shells.find? k = some s)
    (t : Str) (r : K) (hr : (t, r) ∈ s.fluorescence) :
    SMap.find? (distLines e (ks.map (fun k => (k, v k))) acc) t =
      if k ∈ ks ∧ 0 < r * v k * yieldOf s then
        some { energy := lineE e k t, rate := r * v k * yieldOf s } else acc.find? t := by
  induction ks generalizing acc with
  | nil => simp [distLines]
  | cons k' ks ih =>
    have h := List.nodup_cons.1 hnd
    have step : distLines e ((k' :: ks).map (fun k => (k, v k))) acc
        = distLines e (ks.map (fun k => (k, v k))) (match e.shells.find? k' with
            | some s => shellLines e k' s (v k') acc
            | none => acc) := rfl
    rw [step, ih h.2]
    by_cases hk : k' = k
    · subst hk
      simp only [h.1, false_and, if_false, hs, List.mem_cons, true_or, true_and]
      unfold shellLines
      have := (foldl_cond_find s.fluorescence (fun p => 0 < p.2 * v k' * yieldOf s)
        (fun p => ({ energy := lineE e k' p.1, rate := p.2 * v k' * yieldOf s } : Line K)) acc
        (SMap.keys_nodup (hc.sorted k' s hs)) t).1 r hr
      exact this
    · have hacc : SMap.find? (match e.shells.find? k' with
            | some s => shellLines e k' s (v k') acc
            | none => acc) t = acc.find? t := by
        cases hs' : e.shells.find? k' with
        | none => rfl
        | some s' =>
          simp only
          unfold shellLines
          exact (foldl_cond_find s'.fluorescence (fun p => 0 < p.2 * v k' * yieldOf s')
            (fun p => ({ energy := lineE e k' p.1, rate := p.2 * v k' * yieldOf s' } : Line K)) acc
            (SMap.keys_nodup (hc.sorted k' s' hs')) t).2
            (fun x hx => hk (hc.disjoint k' s' k s t x r hs' hs hx hr))
      rw [hacc]
      simp [Ne.symm hk]

theorem distLines_find_none {e : Element K} (hc : CleanShells e.shells) (ks : List Str)
    (v : Str → K) (acc : SMap Str (Line K)) (t : Str)
    (hno : ∀ k s r, e.shells.find? k = some s → (t, r) ∉ s.fluorescence) :
    SMap.find? (distLines e (ks.map (fun k => (k, v k))) acc) t = acc.find? t := by
  induction ks generalizing acc with
  | nil => rfl
  | cons k' ks ih =>
    have step : distLines e ((k' :: ks).map (fun k => (k, v k))) acc
        = distLines e (ks.map (fun k => (k, v k))) (match e.shells.find? k' with
            | some s => shellLines e k' s (v k') acc
            | none => acc) := rfl
    rw [step, ih]
    cases hs' : e.shells.find? k' with
    | none => rfl
    | some s' =>
      simp only
      unfold shellLines
      exact (foldl_cond_find s'.fluorescence (fun p => 0 < p.2 * v k' * yieldOf s')
        (fun p => ({ energy := lineE e k' p.1, rate := p.2 * v k' * yieldOf s' } : Line K)) acc
        (SMap.keys_nodup (hc.sorted k' s' hs')) t).2 (fun x hx => hno k' s' x hs' hx)

/-- Adding the cached lines of one shell. -/
theorem addCached_find (w : K) (hw : 0 < w) (lines : SMap Str (Line K)) (hs : SMap.Sorted lines) (t : Str)
    (en S ρ : K) (hS : 0 ≤ S) (hρ : 0 ≤ ρ)
    (hl : lines.find? t = if 0 < ρ then some { energy := en, rate := ρ } else none) (acc : SMap Str (Line K))
    (ha : acc.find? t = if 0 < S then some { energy := en, rate := S } else none) :
    SMap.find? (addCached w lines acc) t
      = if 0 < S + ρ * w then some { energy := en, rate := S + ρ * w } else none := by
  have hnot : ∀ (l : SMap Str (Line K)) (acc : SMap Str (Line K)), l.find? t = none →
      SMap.find? (addCached w l acc) t = acc.find? t := by
    intro l
    induction l with
    | nil => intro acc _; rfl
    | cons p r ih =>
      obtain ⟨t', x⟩ := p
      intro acc hn
      rw [SMap.find?_cons] at hn
      split at hn
      · cases hn
      · rename_i hne
        unfold addCached
        simp only
        rw [ih _ hn]
        split <;> rw [SMap.find?_insert, if_neg hne]
  induction lines generalizing acc with
  | nil =>
    simp only [SMap.find?_nil] at hl
    have : ¬ 0 < ρ := by intro h; rw [if_pos h] at hl; cases hl
    have hz : ρ = 0 := le_antisymm (not_lt.1 this) hρ
    simp only [addCached, hz, zero_mul, add_zero]
    exact ha
  | cons p r ih =>
    obtain ⟨t', x⟩ := p
    obtain ⟨hlt, hs'⟩ := SMap.sorted_cons.1 hs
    by_cases htt : t' = t
    · subst htt
      have hrest : SMap.find? r t' = none := by
        rw [SMap.find?_eq_none_iff]
        intro q hq
        exact ne_of_gt (hlt q hq)
      rw [SMap.find?_cons, if_pos rfl] at hl
      split at hl
      · rename_i hpos
        cases hl
        have hmul : 0 < ρ * w := mul_pos hpos hw
        have hsum : 0 < S + ρ * w := by linarith
        unfold addCached
        simp only
        rw [hnot r _ hrest, if_pos hsum]
        split
        · rename_i hno
          rw [hno] at ha
          have : ¬ 0 < S := by intro h; rw [if_pos h] at ha; cases ha
          have hz : S = 0 := le_antisymm (not_lt.1 this) hS
          rw [SMap.find?_insert, if_pos rfl, hz, zero_add]
        · rename_i o ho
          rw [ho] at ha
          have : 0 < S := by
            by_contra h; rw [if_neg h] at ha; cases ha
          rw [if_pos this] at ha
          cases ha
          rw [SMap.find?_insert, if_pos rfl]
      · cases hl
    · rw [SMap.find?_cons, if_neg htt] at hl
      unfold addCached
      simp only
      apply ih hs' hl
      split <;> rw [SMap.find?_insert, if_neg htt] <;> exact ha

theorem addCached_sorted (w : K) (lines : List (Str × Line K)) (acc : SMap Str (Line K))
    (h : SMap.Sorted acc) : SMap.Sorted (addCached w lines acc) := by
  induction lines generalizing acc with
  | nil => exact h
  | cons p r ih =>
    obtain ⟨t', x⟩ := p
    unfold addCached
    simp only
    apply ih
    split <;> exact SMap.insert_sorted h _ _

theorem cachedLoop_ok (cache : SMap Str (SMap Str (Line K))) (d : List (Str × K))
    (hcache : ∀ p ∈ d, 0 < p.2 → p.1 ≠ allOther → ∃ lines, cache.find? p.1 = some lines ∧ SMap.Sorted lines)
    (acc : SMap Str (Line K)) (hacc : SMap.Sorted acc) :
    ∃ out, cachedLoop cache d acc = .ok out ∧ SMap.Sorted out ∧
      ∀ (t : Str) (en S : K) (ρ : Str → K), 0 ≤ S → (∀ p ∈ d, 0 ≤ ρ p.1) →
        (∀ p ∈ d, 0 < p.2 → p.1 ≠ allOther → ∀ lines, cache.find? p.1 = some lines →
          lines.find? t = if 0 < ρ p.1 then some { energy := en, rate := ρ p.1 } else none) →
        (acc.find? t = if 0 < S then some { energy := en, rate := S } else none) →
        (let S' := S + (d.map (fun p => if 0 < p.2 ∧ p.1 ≠ allOther then ρ p.1 * p.2 else 0)).sum
         out.find? t = if 0 < S' then some { energy := en, rate := S' } else none) := by
  induction d generalizing acc with
  | nil =>
    refine ⟨acc, rfl, hacc, ?_⟩
    intro t en S ρ _ _ _ h
    simpa using h
  | cons p r ih =>
    obtain ⟨k, v⟩ := p
    have hr : ∀ p ∈ r, 0 < p.2 → p.1 ≠ allOther →
        ∃ lines, cache.find? p.1 = some lines ∧ SMap.Sorted lines :=
      fun p hp => hcache p (List.mem_cons_of_mem _ hp)
    by_cases hc : v ≤ 0 ∨ k = allOther
    · obtain ⟨out, h1, h2, h3⟩ := ih hr acc hacc
      refine ⟨out, by unfold cachedLoop; rw [if_pos hc]; exact h1, h2, ?_⟩
      intro t en S ρ hS hρ hl ha
      have := h3 t en S ρ hS (fun p hp => hρ p (List.mem_cons_of_mem _ hp))
        (fun p hp => hl p (List.mem_cons_of_mem _ hp)) ha
      have hno : ¬ (0 < v ∧ k ≠ allOther) := by
        rintro ⟨a, b⟩
        rcases hc with h | h
        · exact absurd a (not_lt.2 h)
        · exact b h
      simp only [List.map_cons, List.sum_cons, hno, if_false, zero_add]
      exact this
    · push Not at hc
      obtain ⟨lines, hl0, hls⟩ := hcache (k, v) (by simp) hc.1 hc.2
      obtain ⟨out, h1, h2, h3⟩ := ih hr (addCached v lines acc) (addCached_sorted v lines acc hacc)
      refine ⟨out, ?_, h2, ?_⟩
      · unfold cachedLoop
        rw [if_neg (by push Not; exact hc), hl0]
        exact h1
      · intro t en S ρ hS hρ hl ha
        have hρk := hρ (k, v) (by simp)
        have hadd := addCached_find v hc.1 lines hls t en S (ρ k) hS hρk (hl (k, v) (by simp) hc.1 hc.2 lines hl0)
          acc ha
        have hS' : 0 ≤ S + ρ k * v := by
          have := mul_nonneg hρk (le_of_lt hc.1); linarith
        have := h3 t en (S + ρ k * v) ρ hS' (fun p hp => hρ p (List.mem_cons_of_mem _ hp))
          (fun p hp => hl p (List.mem_cons_of_mem _ hp)) hadd
        simp only [List.map_cons, List.sum_cons]
        rw [if_pos (show 0 < v ∧ k ≠ allOther from hc), ← add_assoc]
        exact this

theorem fillCascadeLoop_ok {e : Element K} (subs : List Str) (hnd : subs.Nodup)
    (cache c : SMap Str (SMap Str (Line K))) (h : fillCascadeLoop e subs cache = (.ok (), c)) :
    (∀ s ∈ subs, ∃ l, getLines { e with cascadeOn := false } [(s, 1)] true true = .ok l ∧ c.find? s = some l) ∧
    (∀ s, s ∉ subs → c.find? s = cache.find? s) := by
  induction subs generalizing cache with
  | nil =>
    simp only [fillCascadeLoop, Prod.mk.injEq, true_and] at h
    simp [h]
  | cons a r ih =>
    have hn := List.nodup_cons.1 hnd
    unfold fillCascadeLoop at h
    split at h
    · rename_i l hl
      obtain ⟨h1, h2⟩ := ih hn.2 _ h
      constructor
      · intro s hs
        rcases List.mem_cons.1 hs with rfl | hs
        · refine ⟨l, hl, ?_⟩
          rw [h2 s hn.1, SMap.find?_insert, if_pos rfl]
        · exact h1 s hs
      · intro s hs
        simp only [List.mem_cons, not_or] at hs
        rw [h2 s hs.2, SMap.find?_insert, if_neg (Ne.symm hs.1)]
    all_goals cases h

/-- The lines computed without cache. -/
theorem direct_iff {e : Element K} (hT : TransfersNonneg e.shells) (hoff : e.cascadeOn = false) {d : SMap Str K}
    (hd : ∀ p ∈ d, 0 ≤ p.2) (out : SMap Str (Line K)) :
    e.getLines d true true = .ok out ↔
      (activeKeys e).Pairwise (fun i j => 0 < cascF (tval e.shells) (activeKeys e) (at0 d) i →
        ∃ t, transfer e.shells i j = .ok t) ∧
      (∀ k ∈ activeKeys e, ∃ s, e.shells.find? k = some s ∧
        ShellOk e k s (cascF (tval e.shells) (activeKeys e) (at0 d) k)) ∧
      out = distLines e ((activeKeys e).map (fun k => (k, cascF (tval e.shells) (activeKeys e) (at0 d) k))) [] := by
  unfold getLines
  simp only [if_true, hoff, Bool.false_eq_true, false_and, if_false, Outcome.bind_eq_ok]
  constructor
  · rintro ⟨f, hf, hl⟩
    obtain ⟨h1, rfl⟩ := (getCascade_iff hT hd f).1 hf
    obtain ⟨h2, h3⟩ := (linesLoop_iff _ _ _ _).1 hl
    refine ⟨h1, ?_, h3⟩
    intro k hk
    exact h2 (k, _) (List.mem_map.2 ⟨k, hk, rfl⟩)
  · rintro ⟨h1, h2, h3⟩
    refine ⟨_, (getCascade_iff hT hd _).2 ⟨h1, rfl⟩, (linesLoop_iff _ _ _ _).2 ⟨?_, h3⟩⟩
    rintro p hp
    obtain ⟨k, hk, rfl⟩ := List.mem_map.1 hp
    exact h2 k hk

theorem at0_unit (s k : Str) : at0 ([(s, 1)] : SMap Str K) k = if s = k then 1 else 0 := by
  unfold at0
  rw [SMap.find?_cons]
  split <;> rfl

theorem sum_entries (d : SMap Str K) (hs : SMap.Sorted d) (hd : ∀ p ∈ d, 0 ≤ p.2) (ks : List Str)
    (hnd : ks.Nodup) (g : Str → K) (hother : allOther ∉ ks)
    (hk : ∀ p ∈ d, 0 < p.2 → p.1 = allOther ∨ p.1 ∈ ks) :
    (d.map (fun p => if 0 < p.2 ∧ p.1 ≠ allOther then g p.1 * p.2 else 0)).sum
      = (ks.map (fun s => at0 d s * g s)).sum := by
  induction d with
  | nil => simp [at0]
  | cons p r ih =>
    obtain ⟨k, v⟩ := p
    obtain ⟨hlt, hs'⟩ := SMap.sorted_cons.1 hs
    have hnone : SMap.find? r k = none := by
      rw [SMap.find?_eq_none_iff]
      intro q hq
      exact ne_of_gt (hlt q hq)
    rw [List.map_cons, List.sum_cons, ih hs' (fun p hp => hd p (List.mem_cons_of_mem _ hp))
      (fun p hp => hk p (List.mem_cons_of_mem _ hp))]
    have hsplit : ks.map (fun s => at0 ((k, v) :: r) s * g s)
        = ks.map (fun s => (if k = s then v * g s else 0) + at0 r s * g s) := by
      apply List.map_congr_left
      intro s _
      unfold at0
      rw [SMap.find?_cons]
      by_cases h : k = s
      · subst h; simp [hnone]
      · simp [h]
    rw [hsplit, List.sum_map_add, sum_delta ks hnd k (fun s => v * g s)]
    congr 1
    have hv := hd (k, v) (by simp)
    by_cases hpos : 0 < v
    · by_cases ho : k = allOther
      · subst ho; simp [hother]
      · have : k ∈ ks := by
          rcases hk (k, v) (by simp) hpos with h | h
          · exact absurd h ho
          · exact h
        simp [hpos, ho, this, mul_comm]
    · have hz : v = 0 := le_antisymm (not_lt.1 hpos) hv
      simp [hz]

/-- **C17** With the cascade cache filled from the current data, the lines computed through the cache are those
computed without it, for every non-negative vacancy distribution over the shells of the element (and "all
other"). The shells are the innermost ones without gap, no label belongs to two shells. -/
theorem C17_cache_transparent {e e' : Element K} (hT : TransfersNonneg e.shells) (hc : CleanShells e.shells)
    (hkeys : e.shells.keys = keys.take e.shells.length) (hfill : e.fillCascadeCache = (.ok (), e'))
    (d : SMap Str K) (hds : SMap.Sorted d) (hd : ∀ p ∈ d, 0 ≤ p.2)
    (hdk : ∀ p ∈ d, 0 < p.2 → p.1 = allOther ∨ e.shells.mem p.1 = true) :
    ∃ out, getLines { e' with cascadeOn := true } d true true = .ok out ∧
      getLines { e with cascadeOn := false } d true true = .ok out := by
  have hact : e.shells.keys = activeKeys e := hkeys
  have hnd := activeKeys_nodup e
  -- the cache
  unfold fillCascadeCache at hfill
  simp only at hfill
  split at hfill
  rotate_left
  · rename_i o ho
    rcases hfl : (fillCascadeLoop e e.shells.keys []).1 with u | x | u | _
    · exact absurd hfl (ho)
    all_goals (rw [hfl] at hfill; cases hfill)
  rename_i hok
  simp only [Prod.mk.injEq, true_and] at hfill
  subst hfill
  have hloop : fillCascadeLoop e e.shells.keys [] = (.ok (), (fillCascadeLoop e e.shells.keys []).2) :=
    Prod.ext hok rfl
  obtain ⟨hcache, hcache0⟩ := fillCascadeLoop_ok e.shells.keys (by rw [hact]; exact hnd) [] _ hloop
  generalize hC : (fillCascadeLoop e e.shells.keys []).2 = cache at hcache hcache0 ⊢
  set e0 : Element K := { e with cascadeOn := false } with he0
  have hT0 : TransfersNonneg e0.shells := hT
  have hA : activeKeys e0 = activeKeys e := rfl
  have hS : e0.shells = e.shells := rfl
  let U (s : Str) : Str → K := cascF (tval e.shells) (activeKeys e) (fun i => if s = i then 1 else 0)
  have hU0 : ∀ s k, 0 ≤ U s k := by
    intro s k
    have hu : ∀ i : Str, (0 : K) ≤ (fun i => if s = i then (1 : K) else 0) i := by
      intro i; simp only; split
      · exact zero_le_one
      · exact le_refl _
    exact le_trans (hu k) (cascF_ge _ _ _
      (fun i _ j hj => tval_nonneg hT i j (List.mem_of_mem_take hj)) hu k)
  have hunit : ∀ s ∈ activeKeys e, ∃ l, cache.find? s = some l ∧
      (activeKeys e).Pairwise (fun i j => 0 < U s i → ∃ t, transfer e.shells i j = .ok t) ∧
      (∀ k ∈ activeKeys e, ∃ sh, e.shells.find? k = some sh ∧ ShellOk e0 k sh (U s k)) ∧
      l = distLines e0 ((activeKeys e).map (fun k => (k, U s k))) [] := by
    intro s hs
    obtain ⟨l, h1, h2⟩ := hcache s (by rw [hact]; exact hs)
    have hd1 : ∀ p ∈ ([(s, 1)] : SMap Str K), 0 ≤ p.2 := by simp
    obtain ⟨g1, g2, g3⟩ := (direct_iff hT0 rfl hd1 l).1 h1
    have hfun : at0 ([(s, 1)] : SMap Str K) = fun i => if s = i then 1 else 0 := funext (at0_unit s)
    rw [hfun, hA, hS] at g1 g2 g3
    exact ⟨l, h2, g1, g2, g3⟩
  -- the distribution
  have hat : ∀ i, 0 ≤ at0 d i := by
    intro i
    unfold at0
    cases h : d.find? i with
    | none => exact le_refl _
    | some v => exact hd _ (SMap.mem_of_find? h)
  let F : Str → K := cascF (tval e.shells) (activeKeys e) (at0 d)
  have hsup : ∀ k ∈ activeKeys e, F k = ((activeKeys e).map (fun s => at0 d s * U s k)).sum :=
    fun k hk => cascF_superpose _ _ hnd _ k hk
  have hF0 : ∀ k, 0 ≤ F k := fun k => le_trans (hat k) (cascF_ge _ _ _
      (fun i _ j hj => tval_nonneg hT i j (List.mem_of_mem_take hj)) hat k)
  have hpos : ∀ k ∈ activeKeys e, 0 < F k → ∃ s ∈ activeKeys e, 0 < U s k := by
    intro k hk hF
    by_contra hno
    push Not at hno
    have : F k = 0 := by
      rw [hsup k hk]
      apply List.sum_eq_zero
      intro x hx
      obtain ⟨s, hs, rfl⟩ := List.mem_map.1 hx
      rw [le_antisymm (hno s hs) (hU0 s k), mul_zero]
    exact absurd hF (by rw [this]; exact lt_irrefl _)
  have hshell : ∀ k s, e.shells.find? k = some s → k ∈ activeKeys e := by
    intro k s hs
    rw [← hact]
    exact List.mem_map.2 ⟨(k, s), SMap.mem_of_find? hs, rfl⟩
  -- the direct computation succeeds
  have hdirect : getLines e0 d true true
      = .ok (distLines e0 ((activeKeys e).map (fun k => (k, F k))) []) := by
    rw [direct_iff hT0 rfl hd]
    refine ⟨?_, ?_, rfl⟩
    · rw [hA, hS, List.pairwise_iff_getElem]
      intro i j hi hj hij hFi
      obtain ⟨s, hs, hUs⟩ := hpos _ (List.getElem_mem hi) hFi
      obtain ⟨_, _, g1, _⟩ := hunit s hs
      exact List.pairwise_iff_getElem.1 g1 i j hi hj hij hUs
    · rw [hA, hS]
      intro k hk
      obtain ⟨_, _, _, g2, _⟩ := hunit k hk
      obtain ⟨sh, hsh, g3⟩ := g2 k hk
      refine ⟨sh, hsh, g3.1, ?_⟩
      intro p hp hprod
      have hr := hc.nonneg k sh hsh p hp
      have hy := hc.yield_nonneg k sh hsh
      have hrp : 0 < p.2 := by
        rcases lt_or_eq_of_le hr with h | h
        · exact h
        · exfalso; rw [← h] at hprod; simp at hprod
      have hyp : 0 < yieldOf sh := by
        rcases lt_or_eq_of_le hy with h | h
        · exact h
        · exfalso; rw [← h] at hprod; simp at hprod
      have hFp : 0 < F k := by
        rcases lt_or_eq_of_le (hF0 k) with h | h
        · exact h
        · exfalso
          have hz : cascF (tval e.shells) (activeKeys e) (at0 d) k = 0 := h.symm
          rw [hz] at hprod; simp at hprod
      obtain ⟨s, hs, hUs⟩ := hpos k hk hFp
      obtain ⟨_, _, _, g2', _⟩ := hunit s hs
      obtain ⟨sh', hsh', g3'⟩ := g2' k hk
      rw [hsh] at hsh'
      cases hsh'
      exact g3'.2 p hp (by positivity)
  refine ⟨_, ?_, hdirect⟩
  -- the computation through the cache
  have hcl0 : CleanShells e0.shells := hc
  by_cases hlen : cache.length > 0
  rotate_left
  · have hempty : activeKeys e = [] := by
      by_contra hne
      obtain ⟨s, hs⟩ := List.exists_mem_of_ne_nil _ hne
      obtain ⟨l, h1, _⟩ := hunit s hs
      have : cache = [] := List.length_eq_zero_iff.1 (by omega)
      rw [this] at h1
      simp at h1
    have : cache = [] := List.length_eq_zero_iff.1 (by omega)
    subst this
    simp only [getLines, if_true, List.length_nil, gt_iff_lt, lt_irrefl, and_false, if_false]
    rw [Outcome.bind_eq_ok]
    refine ⟨[], ?_, ?_⟩
    · rw [getCascade_iff (e := { e with cascadeOn := true, cascadeCache := [] }) hT hd]
      have : activeKeys ({ e with cascadeOn := true, cascadeCache := [] } : Element K) = [] := hempty
      rw [this]; simp
    · rw [hempty]; rfl
  · obtain ⟨out, h1, h2, h3⟩ := cachedLoop_ok cache d (by
      intro p hp hpp hpo
      have hmem : p.1 ∈ activeKeys e := by
        rcases hdk p hp hpp with h | h
        · exact absurd h hpo
        · rw [← hact]; exact mem_keys h
      obtain ⟨l, g1, _, _, g4⟩ := hunit p.1 hmem
      exact ⟨l, g1, by rw [g4]; exact distLines_sorted _ _ _ SMap.sorted_nil⟩) [] SMap.sorted_nil
    have hcond : (({ e with cascadeCache := cache, cascadeOn := true } : Element K).cascadeOn = true) := rfl
    have hgl : getLines ({ e with cascadeCache := cache, cascadeOn := true } : Element K) d true true
        = cachedLoop cache d [] := by
      unfold getLines
      simp only [if_true, true_and]
      rw [if_pos hlen]
    rw [hgl, h1]
    congr 1
    apply SMap.ext_find? h2 (distLines_sorted _ _ _ SMap.sorted_nil)
    intro t
    by_cases hown : ∃ k s r, e.shells.find? k = some s ∧ (t, r) ∈ s.fluorescence
    · obtain ⟨k, sh, r, hsh, hr⟩ := hown
      have hk := hshell k sh hsh
      have hr0 := hc.nonneg k sh hsh (t, r) hr
      have hy0 := hc.yield_nonneg k sh hsh
      have hres := h3 t (lineE e0 k t) 0 (fun s => r * U s k * yieldOf sh) (le_refl _)
        (fun p _ => mul_nonneg (mul_nonneg hr0 (hU0 _ _)) hy0) (by
          intro p hp hpp hpo lines hlines
          have hmem : p.1 ∈ activeKeys e := by
            rcases hdk p hp hpp with h | h
            · exact absurd h hpo
            · rw [← hact]; exact mem_keys h
          obtain ⟨l, g1, _, _, g4⟩ := hunit p.1 hmem
          rw [hlines] at g1
          cases g1
          rw [g4, distLines_find hcl0 _ hnd (U p.1) [] k sh hsh t r hr]
          simp [hk]) (by simp)
      rw [distLines_find hcl0 _ hnd F [] k sh hsh t r hr]
      simp only [hk, true_and, SMap.find?_nil, zero_add] at hres ⊢
      have hsum : (d.map (fun p => if 0 < p.2 ∧ p.1 ≠ allOther then r * U p.1 k * yieldOf sh * p.2 else 0)).sum
          = r * F k * yieldOf sh := by
        rw [sum_entries d hds hd (activeKeys e) hnd (fun s => r * U s k * yieldOf sh)
          (by
            intro hmem
            have : allOther ∈ keys := List.mem_of_mem_take hmem
            revert this; decide)
          (by
            intro p hp hpp
            rcases hdk p hp hpp with h | h
            · exact Or.inl h
            · right; rw [← hact]; exact mem_keys h)]
        rw [hsup k hk]
        have : (activeKeys e).map (fun s => at0 d s * (r * U s k * yieldOf sh))
            = (activeKeys e).map (fun s => (at0 d s * U s k) * (r * yieldOf sh)) := by
          apply List.map_congr_left
          intro s _
          ring
        rw [this, Shell.sum_map_mul_right]
        ring
      rw [hsum] at hres
      exact hres
    · push Not at hown
      have hres := h3 t 0 0 (fun _ => 0) (le_refl _) (fun _ _ => le_refl _) (by
          intro p hp hpp hpo lines hlines
          have hmem : p.1 ∈ activeKeys e := by
            rcases hdk p hp hpp with h | h
            · exact absurd h hpo
            · rw [← hact]; exact mem_keys h
          obtain ⟨l, g1, _, _, g4⟩ := hunit p.1 hmem
          rw [hlines] at g1
          cases g1
          rw [g4, distLines_find_none hcl0 _ (U p.1) [] t (fun k s r h => hown k s r h)]
          simp) (by simp)
      rw [distLines_find_none hcl0 _ F [] t (fun k s r h => hown k s r h)]
      simp only [zero_mul, ite_self, zero_add, SMap.find?_nil] at hres ⊢
      rw [hres]
      have : (d.map (fun _ => (0 : K))).sum = 0 := by
        apply List.sum_eq_zero
        intro x hx
        obtain ⟨_, _, rfl⟩ := List.mem_map.1 hx
        rfl
      rw [this]
      simp

end Element
end Fisx
