import Verif.ShellDecay

/-!
# Properties of `fisx::Shell`: C15 (vacancy transfer) and C58 (labels too short)
-/

set_option linter.unusedSectionVars false

namespace Fisx.Shell

variable {K : Type} [Field K] [LinearOrder K] [IsStrictOrderedRing K]

/-! ## Sums over destinations -/

theorem equalRev_ok {d k : Str} {b : Bool} (h : equalRev d k = .ok b) : b = decide (d <+: k) := by
  induction d generalizing k with
  | nil =>
    simp only [equalRev, Outcome.ok.injEq] at h
    simp [← h]
  | cons a d ih =>
    cases k with
    | nil => simp [equalRev] at h
    | cons c k =>
      unfold equalRev at h
      split at h
      · rename_i hac
        subst hac
        rw [ih h]
        simp [List.cons_prefix_cons]
      · rename_i hac
        simp only [Outcome.ok.injEq] at h
        rw [← h]
        simp [List.cons_prefix_cons, hac]

/-- What `suffixSum` returns when it returns. -/
theorem suffixSum_ok {m : SMap Str K} {d : Str} {v : K} (h : suffixSum m d = .ok v) :
    v = ((m.filter (fun e => decide (d <:+ e.1))).map Prod.snd).sum := by
  induction m generalizing v with
  | nil =>
    simp only [suffixSum, Outcome.ok.injEq] at h
    simp [← h]
  | cons e r ih =>
    obtain ⟨k, w⟩ := e
    unfold suffixSum at h
    cases hb : equalRev d.reverse k.reverse with
    | ok b =>
      cases hr : suffixSum r d with
      | ok x =>
        rw [hb, hr] at h
        simp only [Outcome.ok_bind, Outcome.pure_eq, Outcome.ok.injEq] at h
        have hb' := equalRev_ok hb
        have hx := ih hr
        simp only [List.reverse_prefix] at hb'
        subst h
        rw [List.filter_cons]
        subst hb'
        by_cases hsuf : d <:+ k
        · simp [hsuf, hx]
        · simp [hsuf, hx]
      | throw e => rw [hb, hr] at h; simp at h
      | ub u => rw [hb, hr] at h; simp at h
      | diverge => rw [hb, hr] at h; simp at h
    | throw e => rw [hb] at h; simp at h
    | ub u => rw [hb] at h; simp at h
    | diverge => rw [hb] at h; simp at h

/-- Sums over entries selected by disjoint tests do not exceed the whole. -/
theorem sum_disjoint_le {ι : Type} (m : SMap Str K) (is : List ι) (p : ι → Str × K → Bool)
    (hdisj : is.Pairwise (fun i j => ∀ e, ¬ (p i e = true ∧ p j e = true)))
    (hnn : ∀ e ∈ m, 0 ≤ e.2) :
    (is.map (fun i => ((m.filter (p i)).map Prod.snd).sum)).sum ≤ (m.map Prod.snd).sum := by
  rw [← sum_partition m is p hdisj]
  have : 0 ≤ ((m.filter (fun e => ! is.any (fun i => p i e))).map Prod.snd).sum := by
    apply List.sum_nonneg
    intro x hx
    obtain ⟨e, he, rfl⟩ := List.mem_map.1 hx
    exact hnn e (List.mem_of_mem_filter he)
  linarith

/-- A list of distinct destinations. -/
def Destinations (ds : List Str) : Prop := ds.Nodup ∧ (∀ d ∈ ds, d.length = 2) ∧ "AL".toList ∉ ds

theorem pairwise_mem {α : Type} {l : List α} (h : l.Nodup) :
    l.Pairwise (fun a b => a ∈ l ∧ b ∈ l ∧ a ≠ b) := by
  have hpw : l.Pairwise (fun a b => a ≠ b) := h
  rw [List.pairwise_iff_getElem] at hpw ⊢
  intro a b ha hb hab
  exact ⟨List.getElem_mem ha, List.getElem_mem hb, hpw a b ha hb hab⟩

/-- Removing the TOTAL entry does not change a sum that does not select it. -/
theorem filter_not_total (m : SMap Str K) (p : Str × K → Bool) (hp : ∀ v, p (total, v) = false) :
    m.filter p = (m.filter (fun e => decide (e.1 ≠ total))).filter p := by
  rw [List.filter_filter]
  apply List.filter_congr
  intro e _
  by_cases he : e.1 = total
  · have : p e = false := by
      have := hp e.2
      rwa [← he] at this
    simp [this]
  · simp [he]

/-- prefix plus suffix matches, over all destinations: at most twice the sum. -/
theorem transfer_pair_le (name : Str) (hname : name ∈ validNames) (m : SMap Str K) (ds : List Str)
    (hds : Destinations ds) (hnn : ∀ e ∈ m, e.1 ≠ total → 0 ≤ e.2) :
    (ds.map (fun d => prefixSum m (name ++ ['-'] ++ d)
        + ((m.filter (fun e => decide (d <:+ e.1))).map Prod.snd).sum)).sum ≤ 2 * rateSum m ∧
    ∀ d ∈ ds, 0 ≤ prefixSum m (name ++ ['-'] ++ d)
        + ((m.filter (fun e => decide (d <:+ e.1))).map Prod.snd).sum := by
  obtain ⟨hnd, hlen, hAL⟩ := hds
  have hT : name.take 1 ≠ ['T'] ∧ name ≠ [] := by
    have := names_facts name hname
    exact ⟨this.2.2.2.1, this.2.2.2.2.1⟩
  set m0 := m.filter (fun e => decide (e.1 ≠ total)) with hm0
  have hnn0 : ∀ e ∈ m0, 0 ≤ e.2 := by
    intro e he
    obtain ⟨h1, h2⟩ := List.mem_filter.1 he
    exact hnn e h1 (by simpa using h2)
  have hpre : ∀ d, prefixSum m (name ++ ['-'] ++ d)
      = ((m0.filter (fun e => startsWith e.1 (name ++ ['-'] ++ d))).map Prod.snd).sum := by
    intro d
    unfold prefixSum
    rw [filter_not_total m (fun e => startsWith e.1 (name ++ ['-'] ++ d))]
    intro v
    by_contra hcon
    rw [Bool.not_eq_false, startsWith_iff] at hcon
    match name, hT with
    | [], hT => exact hT.2 rfl
    | a :: r, hT =>
      have : a = 'T' := by
        have h2 : (a :: (r ++ ['-'] ++ d)) <+: ('T' :: "OTAL".toList) := hcon
        exact (List.cons_prefix_cons.1 h2).1
      exact hT.1 (by simp [this])
  have hsuf : ∀ d ∈ ds, ((m.filter (fun e => decide (d <:+ e.1))).map Prod.snd).sum
      = ((m0.filter (fun e => decide (d <:+ e.1))).map Prod.snd).sum := by
    intro d hd
    rw [filter_not_total m (fun e => decide (d <:+ e.1))]
    intro v
    rw [decide_eq_false_iff_not]
    intro hcon
    have h2 : d.length = 2 := hlen d hd
    have hal : "AL".toList <:+ total := by decide
    have : d = "AL".toList := by
      have := List.suffix_of_suffix_length_le hcon hal (by rw [h2]; decide)
      exact this.eq_of_length (by rw [h2]; decide)
    exact hAL (this ▸ hd)
  have h1 : (ds.map (fun d => prefixSum m (name ++ ['-'] ++ d))).sum ≤ rateSum m := by
    simp only [hpre]
    apply sum_disjoint_le m0 ds (fun d e => startsWith e.1 (name ++ ['-'] ++ d)) _ hnn0
    refine (pairwise_mem hnd).imp ?_
    rintro a b ⟨ha, hb, hne⟩ e ⟨ha', hb'⟩
    have := startsWith_same_length (by simp [hlen a ha, hlen b hb]) ha' hb'
    simp only [List.append_cancel_left_eq] at this
    exact hne this
  have h2 : (ds.map (fun d => ((m.filter (fun e => decide (d <:+ e.1))).map Prod.snd).sum)).sum
      ≤ rateSum m := by
    rw [List.map_congr_left hsuf]
    apply sum_disjoint_le m0 ds (fun d e => decide (d <:+ e.1)) _ hnn0
    refine (pairwise_mem hnd).imp ?_
    rintro a b ⟨ha, hb, hne⟩ e ⟨ha', hb'⟩
    rw [decide_eq_true_eq] at ha' hb'
    have := List.suffix_of_suffix_length_le ha' hb' (by rw [hlen a ha, hlen b hb])
    exact hne (this.eq_of_length (by rw [hlen a ha, hlen b hb]))
  constructor
  · rw [List.sum_map_add]
    linarith
  · intro d hd
    rw [hpre d, hsuf d hd]
    apply add_nonneg <;>
    · apply List.sum_nonneg
      intro x hx
      obtain ⟨e, he, rfl⟩ := List.mem_map.1 hx
      exact hnn0 e (List.mem_of_mem_filter he)

/-! ## One query -/

/-- Raw Coster-Kronig part, when it is computed. -/
theorem ckRaw_ok {name : Str} {groups : SMap Str (SMap Str K)} {d : Str} {raw : SMap Str K}
    (h : ckRaw name groups d = .ok raw) :
    raw = groups.map (fun g => (g.1, prefixSum g.2 (name ++ ['-'] ++ d)
        + ((g.2.filter (fun e => decide (d <:+ e.1))).map Prod.snd).sum)) := by
  induction groups generalizing raw with
  | nil => simp only [ckRaw, Outcome.ok.injEq] at h; simp [← h]
  | cons g r ih =>
    obtain ⟨f, g⟩ := g
    unfold ckRaw at h
    cases hs : suffixSum g d with
    | ok x =>
      cases hr : ckRaw name r d with
      | ok y =>
        rw [hs, hr] at h
        simp only [Outcome.ok_bind, Outcome.pure_eq, Outcome.ok.injEq] at h
        rw [← h, ih hr, suffixSum_ok hs]
        rfl
      | throw e => rw [hs, hr] at h; simp at h
      | ub u => rw [hs, hr] at h; simp at h
      | diverge => rw [hs, hr] at h; simp at h
    | throw e => rw [hs] at h; simp at h
    | ub u => rw [hs] at h; simp at h
    | diverge => rw [hs] at h; simp at h

theorem ckScale_ok {constants raw out : SMap Str K} (h : ckScale constants raw = .ok out) :
    out = raw.map (fun e => (e.1, e.2 * (constants.find? e.1).getD 0)) := by
  induction raw generalizing out with
  | nil => simp only [ckScale, Outcome.ok.injEq] at h; simp [← h]
  | cons e r ih =>
    obtain ⟨f, v⟩ := e
    unfold ckScale at h
    cases hc : constants.find? f with
    | none => rw [hc] at h; simp at h
    | some c =>
      cases hr : ckScale constants r with
      | ok y =>
        rw [hc, hr] at h
        simp only [Outcome.ok_bind, Outcome.pure_eq, Outcome.ok.injEq] at h
        rw [← h, ih hr]
        simp [hc]
      | throw e => rw [hc, hr] at h; simp at h
      | ub u => rw [hc, hr] at h; simp at h
      | diverge => rw [hc, hr] at h; simp at h

/-- The value of a constant (0 when not defined). -/
def const (s : Shell K) (k : Str) : K := (s.constants.find? k).getD 0

theorem direct_ok {s : Shell K} {d : Str} {t : Transfer K}
    (h : s.getDirectVacancyTransferRatios d = .ok t) :
    d.length = 2 ∧
    t.fluorescence = (s.fluorescence.find? (s.name ++ d)).getD 0 * const s "omega".toList ∧
    t.auger = (prefixSum s.auger (s.name ++ ['-'] ++ d)
        + ((s.auger.filter (fun e => decide (d <:+ e.1))).map Prod.snd).sum)
        * (1 - SMap.total s.constants) ∧
    t.ck = s.ck.map (fun g => (g.1, (prefixSum g.2 (s.name ++ ['-'] ++ d)
        + ((g.2.filter (fun e => decide (d <:+ e.1))).map Prod.snd).sum) * const s g.1)) := by
  unfold getDirectVacancyTransferRatios at h
  split at h
  · simp at h
  · rename_i hlen
    refine ⟨by simpa using hlen, ?_⟩
    cases ha : suffixSum s.auger d with
    | ok x =>
      cases hr : ckRaw s.name s.ck d with
      | ok raw =>
        rw [ha, hr] at h
        simp only [Outcome.ok_bind] at h
        split at h
        · simp at h
        · cases ho : s.constants.find? "omega".toList with
          | none => rw [ho] at h; simp at h
          | some omega =>
            rw [ho] at h
            simp only at h
            cases hc : ckScale s.constants raw with
            | ok ck =>
              rw [hc] at h
              simp only [Outcome.ok_bind, Outcome.pure_eq, Outcome.ok.injEq] at h
              subst h
              refine ⟨?_, ?_, ?_⟩
              · simp only [const]; rw [ho]; rfl
              · simp only; rw [suffixSum_ok ha]
              · simp only
                rw [ckScale_ok hc, ckRaw_ok hr, List.map_map]
                rfl
            | throw e => rw [hc] at h; simp at h
            | ub u => rw [hc] at h; simp at h
            | diverge => rw [hc] at h; simp at h
      | throw e => rw [ha, hr] at h; simp at h
      | ub u => rw [ha, hr] at h; simp at h
      | diverge => rw [ha, hr] at h; simp at h
    | throw e => rw [ha] at h; simp at h
    | ub u => rw [ha] at h; simp at h
    | diverge => rw [ha] at h; simp at h

/-! ## The state invariant -/

/-- Calls whose vectors have matching sizes and, for radiative rates, non-negative values. -/
def Op.Valid : Op K → Prop
  | .setRadiative l v => l.length ≤ v.length ∧ ∀ x ∈ v, 0 ≤ x
  | .setRadiativeMap m => ∀ e ∈ m, 0 ≤ e.2
  | .setNonradiative l v => l.length ≤ v.length
  | _ => True

structure Inv (s : Shell K) : Prop where
  wf : WF s
  sorted : SMap.Sorted s.nonradiative
  fluo : ∃ rad : SMap Str K, SMap.Sorted rad ∧ (∀ e ∈ rad, 0 ≤ e.2) ∧ s.fluorescence = fluorescenceRatios rad
  nonrad : (s.auger = [] ∧ s.ck = []) ∨ updateNonradiative s = s

theorem update_idem (s : Shell K) : updateNonradiative (updateNonradiative s) = updateNonradiative s := by
  have hm : (updateNonradiative s).nonradiative.mem total = true := withTotal_mem _
  have : updateNonradiative (updateNonradiative s) =
      (let t := updateNonradiative s
       { t with nonradiative := withTotal t.nonradiative, ck := t.ck, auger := t.auger }) := by
    have h2 : withTotal (updateNonradiative s).nonradiative = (updateNonradiative s).nonradiative := by
      unfold withTotal; rw [if_pos hm]
    unfold updateNonradiative at hm h2 ⊢
    simp only [hm, if_true]
    unfold ckTargets
    simp only [h2]
  rw [this]
  have h2 : withTotal (updateNonradiative s).nonradiative = (updateNonradiative s).nonradiative := by
    unfold withTotal; rw [if_pos hm]
  simp only [h2]

theorem nonradiativeLoop_ok (labels : List Str) (values : List K) (i : Nat) (m : SMap Str K)
    (hlen : i + labels.length ≤ values.length) : (nonradiativeLoop labels values i m).1 = .ok () := by
  induction labels generalizing i m with
  | nil => rfl
  | cons l r ih =>
    simp only [List.length_cons] at hlen
    unfold nonradiativeLoop
    rw [vget_lt values i (by omega)]
    exact ih _ _ (by omega)

theorem inv_update {s s1 : Shell K} (h : Inv s) (hs : SMap.Sorted s1.nonradiative)
    (heq : s1 = { s with nonradiative := s1.nonradiative }) : Inv (updateNonradiative s1) := by
  refine ⟨?_, withTotal_sorted hs, ?_, Or.inr (update_idem s1)⟩
  · rw [heq]; exact h.wf
  · obtain ⟨rad, h1, h2, h3⟩ := h.fluo
    refine ⟨rad, h1, h2, ?_⟩
    rw [← h3, heq]
    rfl

theorem foldl_chars_sorted (entries : List (Str × K)) (m : SMap Str K) (hs : SMap.Sorted m) :
    SMap.Sorted (entries.foldl (fun m e => SMap.insert m e.1.upper e.2) m) := by
  induction entries generalizing m with
  | nil => exact hs
  | cons e r ih => exact ih _ (SMap.insert_sorted hs _ _)

theorem inv_radiative {s : Shell K} (h : Inv s) (l : List Str) (v : List K) (hv : ∀ x ∈ v, 0 ≤ x) :
    Inv (s.setRadiative l v).2 := by
  have hsort := radiativeLoop_sorted s.name l v 0 ([] : SMap Str K) SMap.sorted_nil
  have hnn := radiativeLoop_nonneg s.name l v 0 ([] : SMap Str K) (by simp) hv
  unfold setRadiative
  split
  · rename_i m hm
    rw [hm] at hsort hnn
    refine ⟨h.wf, h.sorted, ⟨m, hsort, hnn, rfl⟩, ?_⟩
    rcases h.nonrad with hn | hn
    · exact Or.inl hn
    · right
      have : ∀ (r f : SMap Str K), updateNonradiative { s with radiative := r, fluorescence := f }
          = { updateNonradiative s with radiative := r, fluorescence := f } := fun _ _ => rfl
      rw [this, hn]
  · rename_i o m hne hm
    refine ⟨h.wf, h.sorted, h.fluo, ?_⟩
    rcases h.nonrad with hn | hn
    · exact Or.inl hn
    · right
      have : ∀ (r : SMap Str K), updateNonradiative { s with radiative := r }
          = { updateNonradiative s with radiative := r } := fun _ => rfl
      rw [this, hn]

theorem inv_nonradiative {s : Shell K} (h : Inv s) (l : List Str) (v : List K)
    (hlen : l.length ≤ v.length) : Inv (s.setNonradiative l v).2 := by
  have hok := nonradiativeLoop_ok l v 0 ([] : SMap Str K) (by omega)
  have hsort := nonradiativeLoop_sorted l v 0 ([] : SMap Str K) SMap.sorted_nil
  unfold setNonradiative
  split
  · rename_i m hm
    rw [hm] at hsort
    exact inv_update h (s1 := { s with nonradiative := m }) hsort rfl
  · rename_i o m hne hm
    rw [hm] at hok
    exact absurd hok hne

theorem inv_step {s : Shell K} (h : Inv s) (op : Op K) (hop : op.Valid) : Inv (s.step op).2 := by
  cases op with
  | setRadiative l v => exact inv_radiative h l v hop.2
  | setRadiativeMap m =>
    apply inv_radiative h
    intro x hx
    obtain ⟨e, he, rfl⟩ := List.mem_map.1 hx
    exact hop e he
  | setNonradiative l v => exact inv_nonradiative h l v hop
  | setNonradiativeMap m => exact inv_nonradiative h _ _ (by simp)
  | setNonradiativeChars e =>
    exact inv_update h (s1 := { s with
      nonradiative := e.foldl (fun m e => SMap.insert m e.1.upper e.2) s.nonradiative })
      (foldl_chars_sorted e _ h.sorted) rfl
  | setShellConstants m =>
    refine ⟨wf_step h.wf (.setShellConstants m), h.sorted, h.fluo, ?_⟩
    rcases h.nonrad with hn | hn
    · exact Or.inl hn
    · right
      have : ∀ (c : SMap Str K), updateNonradiative { s with constants := c }
          = { updateNonradiative s with constants := c } := fun _ => rfl
      show updateNonradiative { s with constants := (constantsLoop m s.constants).2 }
          = { s with constants := (constantsLoop m s.constants).2 }
      rw [this, hn]

theorem inv_run {s : Shell K} (h : Inv s) (ops : List (Op K)) (hops : ∀ op ∈ ops, op.Valid) :
    Inv (run s ops) := by
  induction ops generalizing s with
  | nil => exact h
  | cons op r ih =>
    exact ih (inv_step h op (hops op (by simp))) (fun o ho => hops o (List.mem_cons_of_mem _ ho))

theorem inv_mk {name : Str} {s : Shell K} (h : mk? name = .ok s) : Inv s := by
  obtain ⟨_, _, _, h4, h5, h6, h7⟩ := mk?_constants h
  refine ⟨wf_mk h, by rw [h4]; exact SMap.sorted_nil, ⟨[], SMap.sorted_nil, by simp, ?_⟩, Or.inl ⟨h5, h6⟩⟩
  rw [h7]; rfl

/-! ## C15 -/

theorem fluorescence_bounds {rad : SMap Str K} (hs : SMap.Sorted rad) (hnn : ∀ e ∈ rad, 0 ≤ e.2) :
    (∀ e ∈ fluorescenceRatios rad, 0 ≤ e.2) ∧ ((fluorescenceRatios rad).map Prod.snd).sum ≤ 1 ∧
    SMap.Sorted (fluorescenceRatios rad) := by
  have hT : ((rad.filter (fun e => decide (e.2 > 0 ∧ e.1 ≠ total))).map Prod.snd).sum = rateSum rad := by
    have := sum_filter_pos rad (fun e => decide (e.1 ≠ total)) hnn
    unfold rateSum
    rw [← this]
    congr 3
    funext e
    rw [Bool.decide_and]
  have h0 : 0 ≤ rateSum rad := by
    unfold rateSum
    apply List.sum_nonneg
    intro x hx
    obtain ⟨e, he, rfl⟩ := List.mem_map.1 hx
    exact hnn e (List.mem_of_mem_filter he)
  rw [fluorescenceRatios_eq rad hs]
  refine ⟨?_, ?_, SMap.sorted_mapVal (SMap.sorted_filter hs _) (fun e => e.2 / rateSum rad)⟩
  · intro e he
    obtain ⟨f, hf, rfl⟩ := List.mem_map.1 he
    exact div_nonneg (hnn f (List.mem_of_mem_filter hf)) h0
  · rw [sum_ratio, hT]
    exact div_le_one_of_le₀ (le_refl _) h0

/-- Looking up distinct keys of a map of non-negative values never gives more than the whole. -/
theorem sum_find_le (m : SMap Str K) (hs : SMap.Sorted m) (hnn : ∀ e ∈ m, 0 ≤ e.2) (ks : List Str)
    (hnd : ks.Nodup) : (ks.map (fun k => (m.find? k).getD 0)).sum ≤ (m.map Prod.snd).sum := by
  have : ks.map (fun k => (m.find? k).getD 0)
      = ks.map (fun k => ((m.filter (fun e => decide (e.1 = k))).map Prod.snd).sum) := by
    apply List.map_congr_left
    intro k _
    clear hnn
    induction m with
    | nil => rfl
    | cons e t ih =>
      have hs' := SMap.sorted_cons.1 hs
      rw [SMap.find?_cons]
      by_cases he : e.1 = k
      · have hnone : t.filter (fun e => decide (e.1 = k)) = [] := by
          rw [List.filter_eq_nil_iff]
          intro x hx hxk
          simp only [decide_eq_true_eq] at hxk
          have := hs'.1 x hx
          rw [he, hxk] at this
          exact absurd this (lt_irrefl _)
        simp [he, hnone]
      · rw [if_neg he, ih hs'.2]
        simp [he]
  rw [this]
  apply sum_disjoint_le m ks (fun k e => decide (e.1 = k)) _ hnn
  have hpw : ks.Pairwise (fun a b => a ≠ b) := hnd
  refine hpw.imp ?_
  intro a b hne e ⟨h1, h2⟩
  simp only [decide_eq_true_eq] at h1 h2
  exact hne (h1.symm.trans h2)

/-- A sorted map is the list of its keys with the looked-up values. -/
theorem eq_map_keys (m : SMap Str K) (hs : SMap.Sorted m) :
    m = (m.map Prod.fst).map (fun k => (k, (m.find? k).getD 0)) := by
  rw [List.map_map]
  conv_lhs => rw [← List.map_id m]
  apply List.map_congr_left
  intro e he
  have : m.find? e.1 = some e.2 := SMap.find?_of_mem hs he
  simp [this]

theorem constants_total {s : Shell K} (hwf : WF s) :
    SMap.total s.constants
      = ((outerSubshells s.name).map (fun i => const s (fij s.name i))).sum + const s "omega".toList := by
  have hs : SMap.Sorted s.constants := by obtain ⟨_, _, _, _, _, h⟩ := hwf; exact h
  have := eq_map_keys s.constants hs
  unfold SMap.total
  rw [this, (wf_targets hwf).2.2]
  simp only [List.map_append, List.map_map, List.sum_append, List.map_cons, List.map_nil, List.sum_cons,
    List.sum_nil, add_zero]
  rfl

theorem sum_map_mul_right (l : List Str) (f : Str → K) (c : K) :
    (l.map (fun d => f d * c)).sum = (l.map f).sum * c := by
  induction l with
  | nil => simp
  | cons a r ih => simp [ih, add_mul]

theorem sum_comm_lists {ι : Type} (ds : List Str) (is : List ι) (f : ι → Str → K) :
    (ds.map (fun d => (is.map (fun i => f i d)).sum)).sum
      = (is.map (fun i => (ds.map (f i)).sum)).sum := by
  induction is with
  | nil => simp
  | cons i r ih =>
    simp only [List.map_cons, List.sum_cons, ← ih]
    rw [List.sum_map_add]

/-- What every history of calls leaves: the constants of the constructor, maps, and ratios computed from the rates. -/
structure Core (s : Shell K) : Prop where
  wf : WF s
  sorted : SMap.Sorted s.nonradiative
  lines : SMap.Sorted s.fluorescence
  nonrad : (s.auger = [] ∧ s.ck = []) ∨ updateNonradiative s = s

/-- The bounds of C15 for the data as they can be read. -/
theorem bounded_core {s : Shell K} (hinv : Core s) (hf1 : ∀ e ∈ s.fluorescence, 0 ≤ e.2)
    (hf2 : (s.fluorescence.map Prod.snd).sum ≤ 1)
    (hc : ∀ e ∈ s.constants, 0 ≤ e.2)
    (hsum : SMap.total s.constants ≤ 1)
    (hn : ∀ e ∈ s.nonradiative, 0 ≤ e.2)
    (htot : rateSum s.nonradiative ≤ (s.nonradiative.find? total).getD 0)
    (ds : List Str) (hds : Destinations ds) (t : Str → Transfer K)
    (ht : ∀ d ∈ ds, s.getDirectVacancyTransferRatios d = .ok (t d)) :
    (∀ d ∈ ds, 0 ≤ (t d).fluorescence ∧ 0 ≤ (t d).auger ∧ ∀ e ∈ (t d).ck, 0 ≤ e.2) ∧
    (ds.map (fun d => (t d).sum)).sum ≤ 2 := by
  have hf3 := hinv.lines
  obtain ⟨htg, hname, hck⟩ := wf_targets hinv.wf
  have hcs : SMap.Sorted s.constants := by obtain ⟨_, _, _, _, _, h⟩ := hinv.wf; exact h
  have hconst : ∀ k, 0 ≤ const s k := by
    intro k
    unfold const
    cases hf : s.constants.find? k with
    | none => simp
    | some v => exact hc (k, v) (SMap.mem_of_find? hf)
  have htotal := constants_total hinv.wf
  -- Auger map and groups: non negative, sums at most one
  have hA : (∀ e ∈ s.auger, e.1 ≠ total → 0 ≤ e.2) ∧ 0 ≤ rateSum s.auger ∧ rateSum s.auger ≤ 1 := by
    rcases hinv.nonrad with ⟨h1, _⟩ | hu
    · rw [h1]; refine ⟨by simp, ?_, ?_⟩ <;> simp [rateSum]
    · have hw : withTotal s.nonradiative = s.nonradiative := by
        rw [← update_nonradiative, hu]
      have hfil := auger_filter hinv.wf hinv.sorted
      rw [hu, hw] at hfil
      have hnum := auger_numerators s.name hname s.nonradiative hn
      have hnum0 : 0 ≤ rateSum s.nonradiative - ((outerSubshells s.name).map
          (ckSum s.name s.nonradiative)).sum := by
        rw [← hnum]
        apply List.sum_nonneg
        intro x hx
        obtain ⟨e, he, rfl⟩ := List.mem_map.1 hx
        exact hn e (List.mem_of_mem_filter he)
      have hden : 0 ≤ augerTotal s.name s.nonradiative := by unfold augerTotal; linarith
      have hnn : ∀ e ∈ s.auger, e.1 ≠ total → 0 ≤ e.2 := by
        intro e he hne
        have : e ∈ s.auger.filter (fun e => decide (e.1 ≠ total)) :=
          List.mem_filter.2 ⟨he, by simp [hne]⟩
        rw [hfil] at this
        obtain ⟨f, hf, rfl⟩ := List.mem_map.1 this
        exact div_nonneg (hn f (List.mem_of_mem_filter hf)) hden
      have hsum' := auger_rateSum hinv.wf hinv.sorted (by rw [hw]; exact hn)
      rw [hu, hw] at hsum'
      refine ⟨hnn, ?_, ?_⟩
      · rw [hsum']; exact div_nonneg hnum0 hden
      · rw [hsum']
        apply div_le_one_of_le₀ _ hden
        unfold augerTotal; linarith
  have hG : (s.ck = [] ∨ s.ck = (outerSubshells s.name).map
        (fun i => (fij s.name i, ckGroup s.nonradiative (ckPrefix s.name i)))) := by
    rcases hinv.nonrad with ⟨_, h2⟩ | hu
    · exact Or.inl h2
    · right
      have hw : withTotal s.nonradiative = s.nonradiative := by
        rw [← update_nonradiative, hu]
      have := update_ck hinv.wf
      rwa [hu, hw] at this
  have hgroup : ∀ i ∈ outerSubshells s.name,
      (∀ e ∈ ckGroup s.nonradiative (ckPrefix s.name i), e.1 ≠ total → 0 ≤ e.2) ∧
      rateSum (ckGroup s.nonradiative (ckPrefix s.name i)) ≤ 1 := by
    intro i hi
    have hnt := (names_facts s.name hname).2.2.1 i hi
    have hfil := ckGroup_filter s.nonradiative hinv.sorted _ hnt
    have h0 := ckGroupTotal_nonneg s.nonradiative (ckPrefix s.name i)
    constructor
    · intro e he hne
      have : e ∈ (ckGroup s.nonradiative (ckPrefix s.name i)).filter (fun e => decide (e.1 ≠ total)) :=
        List.mem_filter.2 ⟨he, by simp [hne]⟩
      rw [hfil] at this
      obtain ⟨f, hf, rfl⟩ := List.mem_map.1 this
      exact div_nonneg (hn f (List.mem_of_mem_filter hf)) h0
    · unfold rateSum
      rw [hfil, sum_ratio]
      exact div_le_one_of_le₀ (le_refl _) h0
  have hck0 : ∀ g ∈ s.ck, (∀ e ∈ g.2, e.1 ≠ total → 0 ≤ e.2) := by
    intro g hg
    rcases hG with h | h
    · rw [h] at hg; simp at hg
    · rw [h] at hg
      obtain ⟨i, hi, rfl⟩ := List.mem_map.1 hg
      exact (hgroup i hi).1
  have hds' := hds
  obtain ⟨hnd, hlen, hAL⟩ := hds
  have hpA := transfer_pair_le s.name hname s.auger ds hds' hA.1
  constructor
  · intro d hd
    obtain ⟨_, e1, e2, e3⟩ := direct_ok (ht d hd)
    refine ⟨?_, ?_, ?_⟩
    · rw [e1]
      apply mul_nonneg _ (hconst _)
      cases hf : s.fluorescence.find? (s.name ++ d) with
      | none => simp
      | some v => exact hf1 (_, v) (SMap.mem_of_find? hf)
    · rw [e2]
      exact mul_nonneg (hpA.2 d hd) (by linarith)
    · intro e he
      rw [e3] at he
      obtain ⟨g, hg, rfl⟩ := List.mem_map.1 he
      exact mul_nonneg ((transfer_pair_le s.name hname g.2 ds hds' (hck0 g hg)).2 d hd) (hconst _)
  · -- split the sum in the three kinds
    have hsplit : (ds.map (fun d => (t d).sum)).sum
        = (ds.map (fun d => (s.fluorescence.find? (s.name ++ d)).getD 0)).sum * const s "omega".toList
          + (ds.map (fun d => prefixSum s.auger (s.name ++ ['-'] ++ d)
              + ((s.auger.filter (fun e => decide (d <:+ e.1))).map Prod.snd).sum)).sum
            * (1 - SMap.total s.constants)
          + (s.ck.map (fun g => (ds.map (fun d => (prefixSum g.2 (s.name ++ ['-'] ++ d)
              + ((g.2.filter (fun e => decide (d <:+ e.1))).map Prod.snd).sum) * const s g.1)).sum)).sum := by
      have : ds.map (fun d => (t d).sum) = ds.map (fun d =>
          ((s.fluorescence.find? (s.name ++ d)).getD 0 * const s "omega".toList
          + (prefixSum s.auger (s.name ++ ['-'] ++ d)
              + ((s.auger.filter (fun e => decide (d <:+ e.1))).map Prod.snd).sum)
            * (1 - SMap.total s.constants))
          + (s.ck.map (fun g => (prefixSum g.2 (s.name ++ ['-'] ++ d)
              + ((g.2.filter (fun e => decide (d <:+ e.1))).map Prod.snd).sum) * const s g.1)).sum) := by
        apply List.map_congr_left
        intro d hd
        obtain ⟨_, e1, e2, e3⟩ := direct_ok (ht d hd)
        unfold Transfer.sum
        rw [e1, e2, e3]
        unfold SMap.total
        rw [List.map_map]
        rfl
      rw [this, List.sum_map_add, List.sum_map_add, sum_map_mul_right, sum_map_mul_right,
        sum_comm_lists]
    have hfsum : (ds.map (fun d => (s.fluorescence.find? (s.name ++ d)).getD 0)).sum ≤ 1 := by
      have hnd2 : (ds.map (fun d => s.name ++ d)).Nodup :=
        List.Pairwise.map _ (fun a b hne h => hne (List.append_cancel_left h)) hnd
      have := sum_find_le s.fluorescence hf3 hf1 _ hnd2
      rw [List.map_map] at this
      exact le_trans this hf2
    have hcksum : (s.ck.map (fun g => (ds.map (fun d => (prefixSum g.2 (s.name ++ ['-'] ++ d)
              + ((g.2.filter (fun e => decide (d <:+ e.1))).map Prod.snd).sum) * const s g.1)).sum)).sum
        ≤ 2 * ((outerSubshells s.name).map (fun i => const s (fij s.name i))).sum := by
      rcases hG with h | h
      · rw [h]
        simp only [List.map_nil, List.sum_nil]
        apply mul_nonneg (by norm_num)
        apply List.sum_nonneg
        intro x hx
        obtain ⟨i, _, rfl⟩ := List.mem_map.1 hx
        exact hconst _
      · have hmul : 2 * ((outerSubshells s.name).map (fun i => const s (fij s.name i))).sum
            = ((outerSubshells s.name).map (fun i => 2 * const s (fij s.name i))).sum := by
          generalize outerSubshells s.name = l
          induction l with
          | nil => simp
          | cons a r ih => simp only [List.map_cons, List.sum_cons, ← ih]; ring
        rw [h, List.map_map, hmul]
        apply List.sum_le_sum
        intro i hi
        simp only [Function.comp]
        rw [sum_map_mul_right]
        have hp := (transfer_pair_le s.name hname _ ds hds' (hgroup i hi).1).1
        have hg1 := (hgroup i hi).2
        apply mul_le_mul_of_nonneg_right _ (hconst _)
        linarith
    rw [hsplit]
    have hω := hconst "omega".toList
    have h1 : (ds.map (fun d => (s.fluorescence.find? (s.name ++ d)).getD 0)).sum * const s "omega".toList
        ≤ 1 * const s "omega".toList := mul_le_mul_of_nonneg_right hfsum hω
    have h2 := mul_le_mul_of_nonneg_right (le_trans hpA.1 (by linarith [hA.2.2] : 2 * rateSum s.auger ≤ 2))
      (by linarith : (0 : K) ≤ 1 - SMap.total s.constants)
    rw [htotal] at hsum h2 ⊢
    linarith

/-- **C15** Take any history of calls on a constructed shell (vector sizes matching, radiative rates
non-negative) after which the stored yields are non-negative and add up to at most one, the stored non-radiative
rates are non-negative and their TOTAL is at least their sum. Then for every list of distinct destination
subshells, all the direct vacancy transfer probabilities are non-negative and the average number of vacancies
created by one vacancy over all these destinations is at most two. ("AL" is excluded because it is the end of
the word TOTAL, see `C15_AL`.) -/
theorem C15_bounded {name : Str} {s0 : Shell K} (hmk : mk? name = .ok s0) (ops : List (Op K))
    (hops : ∀ op ∈ ops, op.Valid)
    (hc : ∀ e ∈ (run s0 ops).constants, 0 ≤ e.2)
    (hsum : SMap.total (run s0 ops).constants ≤ 1)
    (hn : ∀ e ∈ (run s0 ops).nonradiative, 0 ≤ e.2)
    (htot : rateSum (run s0 ops).nonradiative ≤ ((run s0 ops).nonradiative.find? total).getD 0)
    (ds : List Str) (hds : Destinations ds) (t : Str → Transfer K)
    (ht : ∀ d ∈ ds, (run s0 ops).getDirectVacancyTransferRatios d = .ok (t d)) :
    (∀ d ∈ ds, 0 ≤ (t d).fluorescence ∧ 0 ≤ (t d).auger ∧ ∀ e ∈ (t d).ck, 0 ≤ e.2) ∧
    (ds.map (fun d => (t d).sum)).sum ≤ 2 := by
  have hinv := inv_run (inv_mk hmk) ops hops
  obtain ⟨rad, hrs, hrn, hfl⟩ := hinv.fluo
  obtain ⟨hf1, hf2, hf3⟩ := fluorescence_bounds hrs hrn
  rw [← hfl] at hf1 hf2 hf3
  exact bounded_core ⟨hinv.wf, hinv.sorted, hf3, hinv.nonrad⟩ hf1 hf2 hc hsum hn htot ds hds t ht

/-- An L1 shell with yields adding up to 9/10 meets the hypotheses of `C15_bounded` for two destinations. -/
example : ∃ s0 : Shell ℚ, mk? "L1".toList = .ok s0 ∧
    (let s := run s0 [.setRadiative ["L1M3".toList, "L1M2".toList] [3, 1],
        .setNonradiative ["L1-L3M1".toList, "L1-M1M1".toList] [2, 5],
        .setShellConstants [("f13".toList, 1/2), ("omega".toList, 2/5)]]
     SMap.total s.constants ≤ 1 ∧ rateSum s.nonradiative ≤ (s.nonradiative.find? total).getD 0 ∧
     s.getDirectVacancyTransferRatios "M1".toList
       = .ok { fluorescence := 0, auger := 1/5, ck := [("f12".toList, 0), ("f13".toList, 1/2)] } ∧
     s.getDirectVacancyTransferRatios "M3".toList
       = .ok { fluorescence := 3/10, auger := 0, ck := [("f12".toList, 0), ("f13".toList, 0)] }) := by
  refine ⟨_, rfl, ?_⟩
  decide +kernel

/-- A destination "AL" picks up the stored TOTAL (in absolute units) as if it were an Auger ratio. -/
theorem C15_AL : ∃ s0 : Shell ℚ, mk? "K".toList = .ok s0 ∧
    (run s0 [.setNonradiative ["K-L1L1".toList] [100]]).getDirectVacancyTransferRatios "AL".toList
      = .ok { fluorescence := 0, auger := 100, ck := [] } := by
  refine ⟨_, rfl, ?_⟩
  decide +kernel

/-- The `char*` overload does not forget the previous total: after storing a first set of transitions, a second
one leaves a total below the sum of the rates, so the Auger ratios add up to more than one and the bound of C15
fails (6 vacancies for one here). -/
theorem C15_chars_violated : ∃ s0 : Shell ℚ, mk? "K".toList = .ok s0 ∧
    (let s := run s0 [.setNonradiativeChars [("K-L1L2".toList, 1)],
        .setNonradiativeChars [("K-L3M1".toList, 5)]]
     rateSum s.auger = 6 ∧
     s.getDirectVacancyTransferRatios "L3".toList = .ok { fluorescence := 0, auger := 5, ck := [] }) := by
  refine ⟨_, rfl, ?_⟩
  decide +kernel

/-! ## C58: no label makes a query read outside a string -/

/-- **C58** is false of the code: non-radiative labels are not validated and a later query for destination "L3"
reads before the beginning of the label "3" (`std::equal` on reverse iterators). -/
theorem C58_violated : ∃ s0 : Shell ℚ, mk? "K".toList = .ok s0 ∧
    (s0.setNonradiative ["3".toList] [1]).1 = .ok () ∧
    (s0.setNonradiative ["3".toList] [1]).2.getDirectVacancyTransferRatios "L3".toList
      = .ub .outOfBounds := by
  refine ⟨_, rfl, ?_, ?_⟩ <;> decide +kernel

theorem equalRev_defined (d k : Str) (h : d.length ≤ k.length) : ∃ b, equalRev d k = .ok b := by
  induction d generalizing k with
  | nil => exact ⟨true, rfl⟩
  | cons a d ih =>
    cases k with
    | nil => simp at h
    | cons c k =>
      unfold equalRev
      split
      · exact ih k (by simpa using h)
      · exact ⟨false, rfl⟩

theorem suffixSum_defined (m : SMap Str K) (d : Str) (h : ∀ e ∈ m, d.length ≤ e.1.length) :
    ∃ v, suffixSum m d = .ok v := by
  induction m with
  | nil => exact ⟨0, rfl⟩
  | cons e r ih =>
    obtain ⟨k, w⟩ := e
    obtain ⟨b, hb⟩ := equalRev_defined d.reverse k.reverse (by simpa using h (k, w) (by simp))
    obtain ⟨v, hv⟩ := ih (fun x hx => h x (List.mem_cons_of_mem _ hx))
    exact ⟨if b then w + v else v, by unfold suffixSum; rw [hb, hv]; rfl⟩

/-- **C58** (missing: labels of zero or one character, see `C58_violated`) when all the stored non-radiative labels
have at least two characters, `getDirectVacancyTransferRatios` of a reachable shell has no undefined behaviour:
it throws `invalid_argument` unless the destination has two characters, throws `domain_error` when the yields
exceed 1.0001, and otherwise returns. -/
theorem C58_partial {name : Str} {s0 : Shell K} (hmk : mk? name = .ok s0) (ops : List (Op K))
    (hops : ∀ op ∈ ops, op.Valid)
    (hlab : ∀ e ∈ (run s0 ops).nonradiative, 2 ≤ e.1.length) (d : Str) :
    (d.length ≠ 2 → (run s0 ops).getDirectVacancyTransferRatios d = .throw .invalidArgument) ∧
    (d.length = 2 → SMap.total (run s0 ops).constants > 10001 / 10000 →
      (run s0 ops).getDirectVacancyTransferRatios d = .throw .domainError) ∧
    (d.length = 2 → SMap.total (run s0 ops).constants ≤ 10001 / 10000 →
      ∃ t, (run s0 ops).getDirectVacancyTransferRatios d = .ok t) := by
  have hinv := inv_run (inv_mk hmk) ops hops
  set s := run s0 ops with hs
  obtain ⟨htg, hname, hck⟩ := wf_targets hinv.wf
  have hcs : SMap.Sorted s.constants := by obtain ⟨_, _, _, _, _, h⟩ := hinv.wf; exact h
  have hdef : ∀ k ∈ (outerSubshells s.name).map (fij s.name) ++ ["omega".toList],
      ∃ c, s.constants.find? k = some c := by
    intro k hk
    rw [← hck] at hk
    obtain ⟨e, he, rfl⟩ := List.mem_map.1 hk
    exact ⟨e.2, SMap.find?_of_mem hcs he⟩
  have htl : 2 ≤ total.length := by decide
  have hAl : ∀ e ∈ s.auger, 2 ≤ e.1.length := by
    rcases hinv.nonrad with ⟨h1, _⟩ | hu
    · rw [h1]; simp
    · have hw : withTotal s.nonradiative = s.nonradiative := by rw [← update_nonradiative, hu]
      have := update_auger hinv.wf hinv.sorted
      rw [hu, hw] at this
      intro e he
      rw [this] at he
      rcases SMap.mem_insert he with rfl | he
      · exact htl
      · obtain ⟨f, hf, rfl⟩ := List.mem_map.1 he
        exact hlab f (List.mem_of_mem_filter hf)
  have hG : ∀ g ∈ s.ck, (∃ c, s.constants.find? g.1 = some c) ∧ ∀ e ∈ g.2, 2 ≤ e.1.length := by
    rcases hinv.nonrad with ⟨_, h2⟩ | hu
    · rw [h2]; simp
    · have hw : withTotal s.nonradiative = s.nonradiative := by rw [← update_nonradiative, hu]
      have := update_ck hinv.wf
      rw [hu, hw] at this
      intro g hg
      rw [this] at hg
      obtain ⟨i, hi, rfl⟩ := List.mem_map.1 hg
      refine ⟨hdef _ (List.mem_append_left _ (List.mem_map_of_mem hi)), ?_⟩
      intro e he
      unfold ckGroup at he
      rcases SMap.mem_insert he with rfl | he
      · exact htl
      · rw [ckGroupRaw_eq _ hinv.sorted] at he
        split at he
        · obtain ⟨f, hf, rfl⟩ := List.mem_map.1 he
          exact hlab f (List.mem_of_mem_filter hf)
        · exact hlab e (List.mem_of_mem_filter he)
  refine ⟨?_, ?_⟩
  · intro hd
    unfold getDirectVacancyTransferRatios
    rw [if_pos hd]
  · have hsuf : d.length = 2 → ∃ v, suffixSum s.auger d = .ok v := by
      intro hd
      exact suffixSum_defined _ _ (fun e he => by rw [hd]; exact hAl e he)
    have hraw : d.length = 2 → ∃ r, ckRaw s.name s.ck d = .ok r ∧
        ∀ e ∈ r, ∃ c, s.constants.find? e.1 = some c := by
      intro hd
      have key : ∀ gs : SMap Str (SMap Str K),
          (∀ g ∈ gs, (∃ c, s.constants.find? g.1 = some c) ∧ ∀ e ∈ g.2, 2 ≤ e.1.length) →
          ∃ r, ckRaw s.name gs d = .ok r ∧ ∀ e ∈ r, ∃ c, s.constants.find? e.1 = some c := by
        intro gs
        induction gs with
        | nil => intro _; exact ⟨[], rfl, by simp⟩
        | cons g r ih =>
          intro h
          obtain ⟨f, g⟩ := g
          obtain ⟨v, hv⟩ := suffixSum_defined g d (fun e he => by rw [hd]; exact (h (f, g) (by simp)).2 e he)
          obtain ⟨r', hr', hc'⟩ := ih (fun x hx => h x (List.mem_cons_of_mem _ hx))
          refine ⟨(f, prefixSum g (s.name ++ ['-'] ++ d) + v) :: r', by unfold ckRaw; rw [hv, hr']; rfl, ?_⟩
          intro e he
          rcases List.mem_cons.1 he with rfl | he
          · exact (h (f, g) (by simp)).1
          · exact hc' e he
      exact key s.ck hG
    constructor
    · intro hd hgt
      obtain ⟨v, hv⟩ := hsuf hd
      obtain ⟨r, hr, _⟩ := hraw hd
      unfold getDirectVacancyTransferRatios
      rw [if_neg (by simp [hd]), hv, hr]
      simp only [Outcome.ok_bind]
      rw [if_pos hgt]
    · intro hd hle
      obtain ⟨v, hv⟩ := hsuf hd
      obtain ⟨r, hr, hc⟩ := hraw hd
      have hscale : ∃ o, ckScale s.constants r = .ok o := by
        clear hr
        induction r with
        | nil => exact ⟨[], rfl⟩
        | cons e r ih =>
          obtain ⟨f, w⟩ := e
          obtain ⟨c, hc1⟩ := hc (f, w) (by simp)
          obtain ⟨o, ho⟩ := ih (fun x hx => hc x (List.mem_cons_of_mem _ hx))
          refine ⟨(f, w * c) :: o, ?_⟩
          unfold ckScale
          simp only at hc1
          rw [hc1, ho]
          rfl
      obtain ⟨o, ho⟩ := hscale
      obtain ⟨om, hom⟩ := hdef "omega".toList (by simp)
      unfold getDirectVacancyTransferRatios
      rw [if_neg (by simp [hd]), hv, hr]
      simp only [Outcome.ok_bind]
      rw [if_neg (not_lt.2 hle), hom]
      simp only
      rw [ho]
      exact ⟨_, rfl⟩

example : ∀ e ∈ ([("K-L1L1".toList, 1), ("TOTAL".toList, 1)] : SMap Str ℚ), 2 ≤ e.1.length := by decide

end Fisx.Shell
