import Verif.MultilayerLemmas

/-!
# Properties C45 and C47: the lines of `getMultilayerFluorescence`
-/

set_option linter.unusedSectionVars false

namespace Fisx
namespace Multilayer

open Xrf (Request)

variable {K : Type} [Field K] [LinearOrder K]

/-! ### Invariant -/

/-- The maps of the environment are maps, and the names of the lines have no blanks. -/
structure Regular (env : Env K) : Prop where
  escape : ∀ e esc, env.escape e = .ok esc → SMap.Sorted esc
  factors : ∀ el e w fs, env.excite el e w = .ok fs → SMap.Sorted fs
  names : ∀ el e w fs, env.excite el e w = .ok fs → ∀ t ∈ fs.map Prod.fst, Plain t

/-- The entry of the escape peak `e` of a line without tertiary excitation. -/
def escLeaf (l : Leaf K) (e : Line K) : Leaf K :=
  { (Leaf.zero : Leaf K) with
    energy := e.energy, ratio := e.rate, rate := e.rate * ((l.primary + l.secondary) * l.efficiency),
    primary := e.rate * l.primary, secondary := e.rate * l.secondary }

/-- What holds of one line and its escape peaks. -/
structure LineInv (env : Env K) (r : Result K) (k : String) (i : Nat) (t : Str) (l : Leaf K)
    (esc : SMap String (Line K)) : Prop where
  sorted : l.contrib.Sorted
  secondary : l.secondary = SMap.total l.contrib
  tertiary : l.tertiary = 0
  escapes : escapesOf env l.energy = .ok esc
  rate : l.rate = (1 - escapeTotal esc) * ((l.primary + l.secondary) * l.efficiency)
  peaks : ∀ m, leaf? r k i (escName t m) = (SMap.find? esc (String.ofList m)).map (escLeaf l)

/-- The invariant of the accumulation, at the boundaries of the cells. -/
structure Inv (env : Env K) (r : Result K) : Prop where
  sorted : SortedLines r
  line : ∀ k i t l, Plain t → leaf? r k i t = some l → ∃ esc, LineInv env r k i t l esc
  orphan : ∀ k i t m, Plain t → leaf? r k i t = none → leaf? r k i (escName t m) = none
  source : ∀ k i t l, Plain t → leaf? r k i t = some l → ∃ el e w fs, env.excite el e w = .ok fs ∧ t ∈ fs.map Prod.fst

theorem inv_nil (env : Env K) : Inv env ([] : Result K) := by
  refine ⟨fun k i => ?_, fun k i t l _ h => ?_, fun k i t m _ _ => rfl, fun k i t l _ h => ?_⟩
  · show SMap.Sorted []
    exact List.Pairwise.nil
  · cases h
  · cases h

theorem inv_cell (env : Env K) (hreg : Regular env) (o : Options K) (rd : RayData K) (req : Request) (thr : K)
    (factors : SMap Str (Factor K)) (i : Nat) (l : LayerData K) (r r' : Result K)
    (hex : ∃ el e w, env.excite el e w = .ok factors) (hi : Inv env r)
    (h : cell env o rd req thr factors i l r = .ok r') : Inv env r' := by
  have hf : SMap.Sorted factors := by obtain ⟨el, e, w, hx⟩ := hex; exact hreg.factors el e w _ hx
  have hpl : ∀ t ∈ factors.map Prod.fst, Plain t := by obtain ⟨el, e, w, hx⟩ := hex; exact hreg.names el e w _ hx
  rcases cell_spec env o rd req thr factors i l r r' (fun e esc he => SMap.keys_nodup (hreg.escape e esc he))
    (SMap.keys_nodup hf) hpl h with ⟨_, rfl⟩ | ⟨_, muIn, lw, mu0, lines, cs, _, _, h1, _, h2, h3, h4⟩
  · exact hi
  -- the lines that are touched
  have hsel : ∀ t ∈ (selected req.family factors).map Prod.fst, Plain t := by
    intro t ht
    obtain ⟨y, hy, rfl⟩ := List.mem_map.mp ht
    exact hpl _ (List.mem_map.mpr ⟨y, List.mem_of_mem_filter hy, rfl⟩)
  have hun : ∀ k i' t, Plain t → ¬ (keyOf req = k ∧ i = i' ∧ t ∈ (selected req.family factors).map Prod.fst) →
      leaf? r' k i' t = leaf? r k i' t ∧ ∀ m, leaf? r' k i' (escName t m) = leaf? r k i' (escName t m) := by
    intro k i' t ht hh
    constructor
    · refine h3 k i' t ?_
      rintro ⟨rfl, rfl, h5 | ⟨u, hu, m, rfl⟩⟩
      · exact hh ⟨rfl, rfl, h5⟩
      · exact not_plain_escName _ _ ht
    · intro m
      refine h3 k i' _ ?_
      rintro ⟨rfl, rfl, h5 | ⟨u, hu, m', h5⟩⟩
      · exact not_plain_escName _ _ (hsel _ h5)
      · obtain ⟨rfl, -⟩ := escName_inj ht (hsel _ hu) h5
        exact hh ⟨rfl, rfl, hu⟩
  refine ⟨h4 hi.sorted, ?_, ?_, ?_⟩
  · intro k i' t l' ht hl
    by_cases hh : keyOf req = k ∧ i = i' ∧ t ∈ (selected req.family factors).map Prod.fst
    · obtain ⟨rfl, rfl, hts⟩ := hh
      rw [← h1] at hts
      obtain ⟨⟨t', p⟩, hp, rfl⟩ := List.mem_map.mp hts
      obtain ⟨f, l0, esc, hf, rfl, he⟩ := h2 _ _ hp
      have hl' := he.line
      rw [hl] at hl'
      simp only [Option.some.injEq] at hl'
      -- the state before
      have hb : l0.contrib.Sorted ∧ l0.secondary = SMap.total l0.contrib ∧ l0.tertiary = 0 ∧
          l0.rate = (1 - escapeTotal esc) * ((l0.primary + l0.secondary) * l0.efficiency) ∧
          ∀ m, leaf? r (keyOf req) i (escName t' m) = none ∧ (l0.primary = 0 ∧ l0.secondary = 0) ∨
            leaf? r (keyOf req) i (escName t' m) = (SMap.find? esc (String.ofList m)).map (escLeaf l0) := by
        rcases he.base with hb | ⟨hb, _, _, hb2⟩
        · obtain ⟨esc', hv⟩ := hi.line _ _ _ _ ht hb
          have := hv.escapes
          rw [he.escapes] at this
          simp only [Outcome.ok.injEq] at this
          subst this
          exact ⟨hv.sorted, hv.secondary, hv.tertiary, hv.rate, fun m => Or.inr (hv.peaks m)⟩
        · rw [hb2]
          refine ⟨List.Pairwise.nil, rfl, rfl, ?_, fun m => Or.inl ⟨hi.orphan _ _ _ m ht hb, rfl, rfl⟩⟩
          show (0 : K) = _
          simp [Leaf.zero]
      obtain ⟨b1, b2, b3, b4, b5⟩ := hb
      refine ⟨esc, ?_⟩
      subst hl'
      refine ⟨addContribs_sorted b1 _ _, ?_, b3, he.escapes, ?_, ?_⟩
      · simp only [addLine, Tmp.add, primaryOf]
        rw [addContribs_total b1, b2]
        ring
      · simp only [addLine, Tmp.add, primaryOf]
        rw [b4]
        ring
      · intro m
        rw [he.escape m]
        cases hm : SMap.find? esc (String.ofList m) with
        | none =>
          rcases b5 m with ⟨b6, -⟩ | b6
          · simpa using b6
          · rw [b6, hm]; rfl
        | some e =>
          simp only [Option.map_some, Option.some.injEq]
          rcases b5 m with ⟨b6, b7, b8⟩ | b6
          · rw [b6]
            simp only [addEscape, escLeaf, addLine, Tmp.add, primaryOf, Option.getD_none, b7, b8, Leaf.zero,
              Leaf.mk.injEq, true_and, and_true]
            refine ⟨?_, ?_, ?_⟩ <;> ring
          · rw [b6, hm]
            simp only [addEscape, escLeaf, addLine, Tmp.add, primaryOf, Option.map_some, Option.getD_some,
              Leaf.mk.injEq, true_and, and_true]
            refine ⟨?_, ?_, ?_⟩ <;> ring
    · obtain ⟨h5, h6⟩ := hun k i' t ht hh
      rw [h5] at hl
      obtain ⟨esc, hv⟩ := hi.line _ _ _ _ ht hl
      exact ⟨esc, ⟨hv.sorted, hv.secondary, hv.tertiary, hv.escapes, hv.rate, fun m => by rw [h6 m, hv.peaks m]⟩⟩
  · intro k i' t m ht hl
    by_cases hh : keyOf req = k ∧ i = i' ∧ t ∈ (selected req.family factors).map Prod.fst
    · obtain ⟨rfl, rfl, hts⟩ := hh
      rw [← h1] at hts
      obtain ⟨⟨t', p⟩, hp, rfl⟩ := List.mem_map.mp hts
      obtain ⟨f, l0, esc, hf, rfl, he⟩ := h2 _ _ hp
      rw [he.line] at hl
      cases hl
    · obtain ⟨h5, h6⟩ := hun k i' t ht hh
      rw [h5] at hl
      rw [h6 m, hi.orphan _ _ _ _ ht hl]
  · intro k i' t l' ht hl
    by_cases hh : keyOf req = k ∧ i = i' ∧ t ∈ (selected req.family factors).map Prod.fst
    · obtain ⟨el, e, w, hx⟩ := hex
      obtain ⟨y, hy, rfl⟩ := List.mem_map.mp hh.2.2
      exact ⟨el, e, w, factors, hx, List.mem_map.mpr ⟨y, List.mem_of_mem_filter hy, rfl⟩⟩
    · rw [(hun k i' t ht hh).1] at hl
      exact hi.source _ _ _ _ ht hl

theorem inv_cellLoop (env : Env K) (hreg : Regular env) (o : Options K) (rd : RayData K) (req : Request) (thr : K)
    (factors : SMap Str (Factor K)) (hex : ∃ el e w, env.excite el e w = .ok factors) :
    ∀ (ls : List (LayerData K)) (i : Nat) (r r' : Result K), Inv env r →
      cellLoop env o rd req thr factors i ls r = .ok r' → Inv env r' := by
  intro ls
  induction ls with
  | nil =>
    intro i r r' hi h
    simp only [cellLoop, Outcome.ok.injEq] at h
    exact h ▸ hi
  | cons l rest ih =>
    intro i r r' hi h
    rw [cellLoop] at h
    obtain ⟨r1, h1, h⟩ := Outcome.bind_eq_ok.mp h
    exact ih _ r1 r' (inv_cell env hreg o rd req thr factors i l r r1 hex hi h1) h

theorem inv_requestLoop (env : Env K) (hreg : Regular env) (o : Options K) (rd : RayData K) :
    ∀ (reqs : List (Outcome Request)) (n : Nat) (thrs thrs' : List K) (r r' : Result K), Inv env r →
      requestLoop env o rd n reqs thrs r = .ok (thrs', r') → Inv env r' := by
  intro reqs
  induction reqs with
  | nil =>
    intro n thrs thrs' r r' hi h
    simp only [requestLoop, Outcome.ok.injEq, Prod.mk.injEq] at h
    exact h.2 ▸ hi
  | cons q rest ih =>
    intro n thrs thrs' r r' hi h
    rw [requestLoop] at h
    obtain ⟨req, h1, h⟩ := Outcome.bind_eq_ok.mp h
    obtain ⟨⟨thr, thrs1⟩, h2, h⟩ := Outcome.bind_eq_ok.mp h
    simp only at h
    split at h
    · exact ih _ _ _ r r' hi h
    · obtain ⟨fs, h3, h⟩ := Outcome.bind_eq_ok.mp h
      obtain ⟨r1, h4, h⟩ := Outcome.bind_eq_ok.mp h
      exact ih _ _ _ r1 r' (inv_cellLoop env hreg o rd req thr fs ⟨_, _, _, h3⟩ _ _ r r1 hi h4) h

theorem inv_rayLoop (env : Env K) (hreg : Regular env) (o : Options K) (reqs : List (Outcome Request)) :
    ∀ (rays : List (K × K)) (thrs : List K) (m : K) (r r' : Result K), Inv env r →
      rayLoop env o reqs rays thrs m r = .ok r' → Inv env r' := by
  intro rays
  induction rays with
  | nil =>
    intro thrs m r r' hi h
    simp only [rayLoop, Outcome.ok.injEq] at h
    exact h ▸ hi
  | cons ray rest ih =>
    obtain ⟨e, w⟩ := ray
    intro thrs m r r' hi h
    rw [rayLoop] at h
    simp only at h
    split at h
    · exact ih _ _ r r' hi h
    · obtain ⟨rd, h1, h⟩ := Outcome.bind_eq_ok.mp h
      obtain ⟨⟨thrs1, r1⟩, h2, h⟩ := Outcome.bind_eq_ok.mp h
      exact ih _ _ r1 r' (inv_requestLoop env hreg o rd reqs 0 _ _ r r1 hi h2) h

/-! ### The tertiary excitation, line by line -/

theorem fillLoop_getD {V : Type} : ∀ (fuel i : Nat) (m : SMap Nat (SMap Str V)) (j : Nat),
    ((fillLoop fuel i m).find? j).getD [] = (m.find? j).getD [] := by
  intro fuel
  induction fuel with
  | zero => intro i m j; rfl
  | succ fuel ih =>
    intro i m j
    rw [fillLoop]
    split
    · rw [ih]
      split
      · rfl
      · rename_i hm
        rw [SMap.find?_insert]
        split
        · rename_i hij
          subst hij
          unfold SMap.mem at hm
          rw [Bool.not_eq_true, Option.isSome_eq_false_iff, Option.isNone_iff_eq_none] at hm
          rw [hm]; rfl
        · rfl
    · rfl

/-- The lines that excite others, after `fillLayers`. -/
def tertiaryKeys (r : Result K) : SMap Str K :=
  (r.map (fun e => (e.1, fillLayers e.2))).foldl (fun ks e => e.2.foldl (fun ks p =>
    keysLoop (e.1.toList.takeWhile (fun c => c ≠ ' ')) p.1 p.2 ks) ks) []

theorem linesOf_tertiary (r : Result K) (k : String) (i : Nat) :
    linesOf (tertiary r) k i = tertiaryLoop (tertiaryKeys r) (linesOf r k i) (linesOf r k i) := by
  have h1 : tertiary r = (r.map (fun e => (e.1, fillLayers e.2))).map
      (fun e => (e.1, e.2.map (fun p => (p.1, tertiaryLoop (tertiaryKeys r) p.2 p.2)))) := rfl
  rw [h1]
  unfold linesOf
  rw [SMap.find?_mapVal, SMap.find?_mapVal]
  cases SMap.find? r k with
  | none => rfl
  | some m =>
    simp only [Option.map_some, Option.getD_some]
    rw [SMap.find?_mapVal]
    have h2 := fillLoop_getD (m.foldl (fun a e => max a e.1) 0 + 2) 0 m i
    change ((fillLayers m).find? i).getD [] = _ at h2
    rw [← h2]
    cases (fillLayers m).find? i with
    | none => rfl
    | some ls => rfl

theorem tertiaryLoop_spec (ks : SMap Str K) : ∀ (rest acc : SMap Str (Leaf K)), SMap.Sorted rest →
    (∀ u, u ∉ rest.map Prod.fst → (tertiaryLoop ks rest acc).find? u = acc.find? u) ∧
    (∀ t l, (t, l) ∈ rest → ∃ acc' : SMap Str (Leaf K),
      (tertiaryLoop ks rest acc).find? t = some (tertiaryOf ks acc' t l) ∧
      ∀ u, u < t → acc'.find? u = (tertiaryLoop ks rest acc).find? u) := by
  intro rest
  induction rest with
  | nil => intro acc _; exact ⟨fun _ _ => rfl, fun t l h => by simp at h⟩
  | cons e rest ih =>
    obtain ⟨t0, l0⟩ := e
    intro acc hs
    have hs' := (SMap.sorted_cons (e := (t0, l0)) (m := rest)).mp hs
    obtain ⟨a, b⟩ := ih (acc.insert t0 (tertiaryOf ks acc t0 l0)) hs'.2
    rw [tertiaryLoop]
    refine ⟨?_, ?_⟩
    · intro u hu
      simp only [List.map_cons, List.mem_cons, not_or] at hu
      rw [a u hu.2, SMap.find?_insert, if_neg (fun hh => hu.1 hh.symm)]
    · intro t l h
      rcases List.mem_cons.mp h with h | h
      · simp only [Prod.mk.injEq] at h
        obtain ⟨rfl, rfl⟩ := h
        have hnot : ∀ u, u ≤ t → u ∉ rest.map Prod.fst := by
          intro u hu hmem
          obtain ⟨y, hy, rfl⟩ := List.mem_map.mp hmem
          exact absurd (hs'.1 y hy) (not_lt.mpr hu)
        refine ⟨acc, ?_, ?_⟩
        · rw [a t (hnot t (le_refl _)), SMap.find?_insert, if_pos rfl]
        · intro u hu
          rw [a u (hnot u hu.le), SMap.find?_insert, if_neg (fun hh => (ne_of_gt hu) hh)]
      · exact b t l h

/-- The names of the escape peaks contain "esc", the ones of the lines do not, and no escape rate is negative. -/
structure EscapeNames (env : Env K) : Prop where
  escape : ∀ e esc, env.escape e = .ok esc → ∀ x ∈ esc, hasEsc x.1.toList = true
  rates : ∀ e esc, env.escape e = .ok esc → ∀ x ∈ esc, 0 ≤ x.2.rate
  lines : ∀ el e w fs, env.excite el e w = .ok fs → ∀ t ∈ fs.map Prod.fst, hasEsc t = false

theorem hasEsc_append (a b : Str) (h : hasEsc b = true) : hasEsc (a ++ b) = true := by
  induction a with
  | nil => exact h
  | cons c a ih => rw [List.cons_append, hasEsc, ih, Bool.or_true]

theorem hasEsc_escName (t m : Str) (h : hasEsc m = true) : hasEsc (escName t m) = true := by
  unfold escName
  exact hasEsc_append _ _ (hasEsc_append [' '] m h)

theorem takeWhile_escName (t m : Str) (h : Plain t) : (escName t m).takeWhile (fun c => c ≠ ' ') = t := by
  unfold escName
  induction t with
  | nil => simp
  | cons c t ih =>
    have hc : c ≠ ' ' := fun hh => h (by rw [hh]; exact List.mem_cons_self ..)
    rw [List.cons_append, List.takeWhile_cons, if_pos (by simpa using hc),
      ih (fun hh => h (List.mem_cons_of_mem _ hh))]

theorem lt_escName (t m : Str) : t < escName t m := by
  unfold escName
  induction t with
  | nil => exact List.nil_lt_cons ..
  | cons c t ih =>
    rw [List.cons_append]
    exact List.cons_lt_cons_self.mpr ih

variable [IsStrictOrderedRing K]

/-- The entry of the escape peak `e` of a line. -/
def peakOf (l : Leaf K) (e : Line K) : Leaf K :=
  { (Leaf.zero : Leaf K) with
    energy := e.energy, ratio := e.rate,
    rate := e.rate * ((l.primary + l.secondary + l.tertiary) * l.efficiency),
    primary := e.rate * l.primary, secondary := e.rate * l.secondary, tertiary := e.rate * l.tertiary }

/-- What holds of one line of the final result and its escape peaks. -/
structure LineFinal (env : Env K) (r : Result K) (k : String) (i : Nat) (t : Str) (l : Leaf K)
    (esc : SMap String (Line K)) : Prop where
  sorted : l.contrib.Sorted
  secondary : l.secondary = SMap.total l.contrib
  escapes : escapesOf env l.energy = .ok esc
  rate : l.rate = (1 - escapeTotal esc) * ((l.primary + l.secondary + l.tertiary) * l.efficiency)
  peaks : ∀ m, leaf? r k i (escName t m) = (SMap.find? esc (String.ofList m)).map (peakOf l)

/-- The final result. -/
structure Final (env : Env K) (r : Result K) : Prop where
  sorted : SortedLines r
  line : ∀ k i t l, Plain t → leaf? r k i t = some l → ∃ esc, LineFinal env r k i t l esc
  orphan : ∀ k i t m, Plain t → leaf? r k i t = none → leaf? r k i (escName t m) = none

theorem Inv.final {env : Env K} {r : Result K} (h : Inv env r) : Final env r := by
  refine ⟨h.sorted, ?_, h.orphan⟩
  intro k i t l ht hl
  obtain ⟨esc, hv⟩ := h.line k i t l ht hl
  refine ⟨esc, ⟨hv.sorted, hv.secondary, hv.escapes, by rw [hv.rate, hv.tertiary, add_zero], fun m => ?_⟩⟩
  rw [hv.peaks m]
  congr 1
  funext e
  simp only [escLeaf, peakOf, Leaf.zero, hv.tertiary, add_zero, mul_zero]

theorem tertiaryLoop_sorted (ks : SMap Str K) : ∀ (rest acc : SMap Str (Leaf K)), SMap.Sorted acc →
    SMap.Sorted (tertiaryLoop ks rest acc) := by
  intro rest
  induction rest with
  | nil => intro acc h; exact h
  | cons e rest ih => intro acc h; exact ih _ (SMap.insert_sorted h _ _)

theorem factorFirst_escLeaf (l : Leaf K) (e : Line K) (he : 0 < e.rate) :
    factorFirst (escLeaf l e) = factorFirst l := by
  unfold factorFirst escLeaf
  simp only
  by_cases hp : l.primary > 0
  · rw [if_pos hp, if_pos (mul_pos he hp), ← mul_add, mul_div_mul_left _ _ (ne_of_gt he)]
  · rw [if_neg hp, if_neg]
    rw [gt_iff_lt, not_lt] at hp ⊢
    exact mul_nonpos_of_nonneg_of_nonpos he.le hp

theorem factorFirst_pos {l : Leaf K} (h : ¬ factorFirst l < 101 / 100) : 0 < l.primary + l.secondary := by
  unfold factorFirst at h
  split at h
  · rename_i hp
    by_contra hn
    have : (l.primary + l.secondary) / l.primary ≤ 0 := div_nonpos_of_nonpos_of_nonneg (not_lt.mp hn) hp.le
    have h2 : (101 : K) / 100 > 0 := by norm_num
    linarith [not_lt.mp h]
  · norm_num at h

theorem Inv.tertiary {env : Env K} {r : Result K} (hn : EscapeNames env) (h : Inv env r) :
    Final env (tertiary r) := by
  have hloop : ∀ k i, ∀ L, L = linesOf r k i → _ := fun k i L (hL : L = linesOf r k i) =>
    tertiaryLoop_spec (tertiaryKeys r) L L (hL ▸ h.sorted k i)
  have hnone : ∀ k i u, leaf? r k i u = none → leaf? (Multilayer.tertiary r) k i u = none := by
    intro k i u hu
    unfold leaf?
    rw [linesOf_tertiary, (hloop k i _ rfl).1 u]
    · exact hu
    · intro hm
      obtain ⟨y, hy, rfl⟩ := List.mem_map.mp hm
      rw [leaf?, SMap.find?_of_mem (h.sorted k i) hy] at hu
      cases hu
  have hsome : ∀ k i t l, leaf? r k i t = some l → ∃ acc' : SMap Str (Leaf K),
      leaf? (Multilayer.tertiary r) k i t = some (tertiaryOf (tertiaryKeys r) acc' t l) ∧
      ∀ u, u < t → acc'.find? u = leaf? (Multilayer.tertiary r) k i u := by
    intro k i t l hl
    unfold leaf?
    rw [linesOf_tertiary]
    exact (hloop k i _ rfl).2 t l (SMap.mem_of_find? hl)
  refine ⟨fun k i => ?_, ?_, ?_⟩
  · rw [linesOf_tertiary]
    exact tertiaryLoop_sorted _ _ _ (h.sorted k i)
  · intro k i t l' ht hl'
    cases hl : leaf? r k i t with
    | none => rw [hnone k i t hl] at hl'; cases hl'
    | some l =>
      obtain ⟨esc, hv⟩ := h.line k i t l ht hl
      obtain ⟨el, e, w, fs, hx, htf⟩ := h.source k i t l ht hl
      have hte := hn.lines el e w fs hx t htf
      obtain ⟨acc', h1, -⟩ := hsome k i t l hl
      rw [hl'] at h1
      simp only [Option.some.injEq] at h1
      have hes : ∀ x ∈ esc, hasEsc x.1.toList = true ∧ 0 ≤ x.2.rate := by
        intro x hx
        have := hv.escapes
        unfold escapesOf at this
        split at this
        · exact ⟨hn.escape _ _ this x hx, hn.rates _ _ this x hx⟩
        · simp only [Outcome.ok.injEq] at this
          subst this; simp at hx
      -- the line
      have key : l'.contrib = l.contrib ∧ l'.secondary = l.secondary ∧ l'.primary = l.primary ∧ l'.energy = l.energy ∧
          l'.efficiency = l.efficiency ∧
          (factorFirst l < 101 / 100 → l'.tertiary = 0 ∧ l'.rate = l.rate) ∧
          (¬ factorFirst l < 101 / 100 → l'.rate = l.rate * ((l'.tertiary + l.primary + l.secondary) /
            (l.primary + l.secondary))) := by
        rw [h1]
        unfold tertiaryOf
        split
        · rename_i hf
          exact ⟨rfl, rfl, rfl, rfl, rfl, fun _ => ⟨rfl, rfl⟩, fun hh => absurd hf hh⟩
        · rename_i hf
          rw [hte]
          exact ⟨rfl, rfl, rfl, rfl, rfl, fun hh => absurd hh hf, fun _ => rfl⟩
      obtain ⟨k1, k2, k3, k4, k5, k6, k7⟩ := key
      refine ⟨esc, ⟨by rw [k1]; exact hv.sorted, by rw [k1, k2]; exact hv.secondary, by rw [k4]; exact hv.escapes,
        ?_, ?_⟩⟩
      · by_cases hf : factorFirst l < 101 / 100
        · rw [(k6 hf).1, (k6 hf).2, hv.rate, k2, k3, k5, add_zero]
        · have hp := factorFirst_pos hf
          rw [k7 hf, hv.rate, k2, k3, k5]
          field_simp
          ring
      · intro m
        cases hm : SMap.find? esc (String.ofList m) with
        | none =>
          rw [Option.map_none]
          exact hnone k i _ (by rw [hv.peaks m, hm]; rfl)
        | some p =>
          rw [Option.map_some]
          have hpm := hes _ (SMap.mem_of_find? hm)
          simp only [String.toList_ofList] at hpm
          obtain ⟨acc'', h2, h3⟩ := hsome k i (escName t m) (escLeaf l p) (by rw [hv.peaks m, hm]; rfl)
          have h4 := h3 t (lt_escName t m)
          rw [hl'] at h4
          rw [h2]
          congr 1
          unfold tertiaryOf
          rw [hasEsc_escName t m hpm.1]
          rcases eq_or_lt_of_le hpm.2 with h0 | h0
          · -- no escape at all
            have : factorFirst (escLeaf l p) = 1 := by
              unfold factorFirst escLeaf
              rw [← h0]; simp
            rw [this, if_pos (by norm_num)]
            simp [escLeaf, peakOf, Leaf.zero, ← h0]
          · rw [factorFirst_escLeaf l p h0]
            by_cases hf : factorFirst l < 101 / 100
            · rw [if_pos hf]
              simp [escLeaf, peakOf, Leaf.zero, (k6 hf).1, k2, k3, k5]
            · rw [if_neg hf]
              have hp := factorFirst_pos hf
              simp only [if_true, escapeTertiary, takeWhile_escName t m ht, h4, Option.getD_some, escLeaf, peakOf,
                Leaf.zero, k2, k3, k5, Leaf.mk.injEq, true_and, and_true]
              refine ⟨?_, ?_⟩
              · field_simp
                ring
              · field_simp
  · intro k i t m ht hl
    refine hnone k i _ (h.orphan k i t m ht ?_)
    cases hl' : leaf? r k i t with
    | none => rfl
    | some l =>
      obtain ⟨acc', h1, -⟩ := hsome k i t l hl'
      rw [h1] at hl; cases hl

theorem calculate_final (env : Env K) (hreg : Regular env) (o : Options K) (hn : o.secondary > 1 → EscapeNames env)
    (reqs : List (Outcome Request)) (rays : List (K × K)) (r : Result K)
    (h : calculate env o reqs rays = .ok r) : Final env r := by
  unfold calculate at h
  obtain ⟨r0, h1, h⟩ := Outcome.bind_eq_ok.mp h
  have hi := inv_rayLoop env hreg o reqs _ _ _ _ _ (inv_nil env) h1
  simp only [Outcome.pure_eq, Outcome.ok.injEq] at h
  subst h
  split
  · rename_i hs
    exact hi.tertiary (hn hs)
  · exact hi.final

/-! ## C45: the escape peaks -/

/-- The escape peaks of the line `t`: the entries called `t`, a blank and a name. -/
def peaksOf (lines : SMap Str (Leaf K)) (t : Str) : List (Str × Leaf K) :=
  lines.filter (fun e => (t ++ [' ']).isPrefixOf e.1)

theorem isPrefixOf_escName (t u : Str) : (t ++ [' ']).isPrefixOf u = true ↔ ∃ m, u = escName t m := by
  rw [List.isPrefixOf_iff_prefix]
  constructor
  · rintro ⟨m, rfl⟩
    exact ⟨m, by simp [escName]⟩
  · rintro ⟨m, rfl⟩
    exact ⟨m, by simp [escName]⟩

theorem peaksOf_perm {env : Env K} (hreg : Regular env) {r : Result K} {k : String} {i : Nat} {t : Str} {l : Leaf K}
    {esc : SMap String (Line K)} (hs : SortedLines r) (hv : LineFinal env r k i t l esc) :
    (peaksOf (linesOf r k i) t).Perm (esc.map (fun e => (escName t e.1.toList, peakOf l e.2))) := by
  have hse : SMap.Sorted esc := by
    have := hv.escapes
    unfold escapesOf at this
    split at this
    · exact hreg.escape _ _ this
    · simp only [Outcome.ok.injEq] at this
      subst this; exact List.Pairwise.nil
  have hinj : ∀ {m n : Str}, escName t m = escName t n → m = n := by
    intro m n h
    unfold escName at h
    simpa using h
  refine (List.perm_ext_iff_of_nodup ?_ ?_).mpr ?_
  · exact (List.Nodup.of_map Prod.fst (SMap.keys_nodup (hs k i))).filter _
  · refine List.Nodup.map_on ?_ (List.Nodup.of_map Prod.fst (SMap.keys_nodup hse))
    intro x hx y hy hxy
    simp only [Prod.mk.injEq] at hxy
    have h1 := String.toList_injective (hinj hxy.1)
    have h2 := SMap.find?_of_mem hse hx
    have h3 := SMap.find?_of_mem hse hy
    rw [h1, h3] at h2
    exact Prod.ext h1 (Option.some.inj h2).symm
  · rintro ⟨u, v⟩
    unfold peaksOf
    rw [List.mem_filter]
    constructor
    · rintro ⟨h1, h2⟩
      obtain ⟨m, rfl⟩ := (isPrefixOf_escName t u).mp h2
      have h3 : leaf? r k i (escName t m) = some v := SMap.find?_of_mem (hs k i) h1
      rw [hv.peaks m] at h3
      obtain ⟨e, he, rfl⟩ := Option.map_eq_some_iff.mp h3
      exact List.mem_map.mpr ⟨_, SMap.mem_of_find? he, by simp⟩
    · intro h
      obtain ⟨⟨n, e⟩, he, h1⟩ := List.mem_map.mp h
      simp only [Prod.mk.injEq] at h1
      obtain ⟨rfl, rfl⟩ := h1
      refine ⟨SMap.mem_of_find? ?_, (isPrefixOf_escName _ _).mpr ⟨_, rfl⟩⟩
      have h3 := hv.peaks n.toList
      rw [String.ofList_toList, SMap.find?_of_mem hse he] at h3
      exact h3

/-- C45, conservation: the rate of a line and the rates of its escape peaks add up to the rate the line has without
escape: its excitation times the detection efficiency. -/
theorem C45_conservation (env : Env K) (hreg : Regular env) (o : Options K) (hn : o.secondary > 1 → EscapeNames env)
    (reqs : List (Outcome Request)) (rays : List (K × K)) (r : Result K) (h : calculate env o reqs rays = .ok r)
    (k : String) (i : Nat) (t : Str) (ht : Plain t) (l : Leaf K) (hl : leaf? r k i t = some l) :
    l.rate + ((peaksOf (linesOf r k i) t).map (fun e => e.2.rate)).sum =
      (l.primary + l.secondary + l.tertiary) * l.efficiency := by
  have hf := calculate_final env hreg o hn reqs rays r h
  obtain ⟨esc, hv⟩ := hf.line k i t l ht hl
  rw [((peaksOf_perm hreg hf.sorted hv).map _).sum_eq, List.map_map, hv.rate]
  have : (esc.map ((fun e : Str × Leaf K => e.2.rate) ∘ fun e => (escName t e.1.toList, peakOf l e.2))).sum =
      escapeTotal esc * ((l.primary + l.secondary + l.tertiary) * l.efficiency) := by
    unfold escapeTotal
    rw [← List.sum_map_mul_right]
    rfl
  rw [this]
  ring

/-- C45, the shares: the escape peaks of a line are those of the detector at the energy of the line, and each of them
gets its fraction of every part of the excitation. -/
theorem C45_shares (env : Env K) (hreg : Regular env) (o : Options K) (hn : o.secondary > 1 → EscapeNames env)
    (reqs : List (Outcome Request)) (rays : List (K × K)) (r : Result K) (h : calculate env o reqs rays = .ok r)
    (k : String) (i : Nat) (t : Str) (ht : Plain t) (l : Leaf K) (hl : leaf? r k i t = some l)
    (hd : env.hasDetector = true) :
    ∃ esc, env.escape l.energy = .ok esc ∧
      l.rate = (1 - (esc.map (fun e => e.2.rate)).sum) * ((l.primary + l.secondary + l.tertiary) * l.efficiency) ∧
      (∀ n e, SMap.find? esc n = some e → ∃ p, leaf? r k i (t ++ ' ' :: n.toList) = some p ∧ p.energy = e.energy ∧
        p.rate = e.rate * ((l.primary + l.secondary + l.tertiary) * l.efficiency) ∧ p.primary = e.rate * l.primary ∧
        p.secondary = e.rate * l.secondary ∧ p.tertiary = e.rate * l.tertiary ∧ p.ratio = e.rate) ∧
      (∀ n, SMap.find? esc n = none → leaf? r k i (t ++ ' ' :: n.toList) = none) := by
  have hf := calculate_final env hreg o hn reqs rays r h
  obtain ⟨esc, hv⟩ := hf.line k i t l ht hl
  have he := hv.escapes
  unfold escapesOf at he
  rw [if_pos hd] at he
  refine ⟨esc, he, hv.rate, ?_, ?_⟩
  · intro n e hne
    have h3 := hv.peaks n.toList
    rw [String.ofList_toList, hne] at h3
    exact ⟨_, h3, rfl, rfl, rfl, rfl, rfl, rfl⟩
  · intro n hne
    have h3 := hv.peaks n.toList
    rw [String.ofList_toList, hne] at h3
    exact h3

/-- C45, every entry with a blank in its name is an escape peak of a line of the same layer. -/
theorem C45_no_orphans (env : Env K) (hreg : Regular env) (o : Options K) (hn : o.secondary > 1 → EscapeNames env)
    (reqs : List (Outcome Request)) (rays : List (K × K)) (r : Result K) (h : calculate env o reqs rays = .ok r)
    (k : String) (i : Nat) (u : Str) (hu : ' ' ∈ u) (p : Leaf K) (hp : leaf? r k i u = some p) :
    ∃ t m l, ' ' ∉ t ∧ u = t ++ ' ' :: m ∧ leaf? r k i t = some l := by
  have hf := calculate_final env hreg o hn reqs rays r h
  obtain ⟨t, m, rfl, ht⟩ := List.eq_append_cons_of_mem hu
  cases hl : leaf? r k i t with
  | none =>
    have := hf.orphan k i t m ht hl
    rw [escName, hp] at this
    cases this
  | some l => exact ⟨t, m, l, ht, rfl, hl⟩

/-- C45, signs: with escape probabilities that are not negative and have a sum of at most one, the rates of a line with
non-negative excitation and of its escape peaks are not negative. -/
theorem C45_nonneg (env : Env K) (hreg : Regular env) (o : Options K) (hn : o.secondary > 1 → EscapeNames env)
    (reqs : List (Outcome Request)) (rays : List (K × K)) (r : Result K) (h : calculate env o reqs rays = .ok r)
    (hesc : ∀ e esc, env.escape e = .ok esc → (∀ x ∈ esc, 0 ≤ x.2.rate) ∧ (esc.map (fun e => e.2.rate)).sum ≤ 1)
    (k : String) (i : Nat) (t : Str) (ht : Plain t) (l : Leaf K) (hl : leaf? r k i t = some l)
    (hp : 0 ≤ l.primary + l.secondary + l.tertiary) (he : 0 ≤ l.efficiency) :
    0 ≤ l.rate ∧ ∀ p ∈ peaksOf (linesOf r k i) t, 0 ≤ p.2.rate := by
  have hf := calculate_final env hreg o hn reqs rays r h
  obtain ⟨esc, hv⟩ := hf.line k i t l ht hl
  have hx : (∀ x ∈ esc, 0 ≤ x.2.rate) ∧ (esc.map (fun e => e.2.rate)).sum ≤ 1 := by
    have := hv.escapes
    unfold escapesOf at this
    split at this
    · exact hesc _ _ this
    · simp only [Outcome.ok.injEq] at this
      subst this; simp
  refine ⟨?_, ?_⟩
  · rw [hv.rate]
    exact mul_nonneg (sub_nonneg.mpr hx.2) (mul_nonneg hp he)
  · intro p hpm
    obtain ⟨e, hem, rfl⟩ := List.mem_map.mp ((peaksOf_perm hreg hf.sorted hv).mem_iff.mp hpm)
    exact mul_nonneg (hx.1 e hem) (mul_nonneg hp he)

/-! ## C47: the secondary excitation -/

/-- C47: the secondary rate of a line is the sum of its contributions, and the rate of a line and its escape peaks is
the excitation of all orders times the efficiency. -/
theorem C47_accounted (env : Env K) (hreg : Regular env) (o : Options K) (hn : o.secondary > 1 → EscapeNames env)
    (reqs : List (Outcome Request)) (rays : List (K × K)) (r : Result K) (h : calculate env o reqs rays = .ok r)
    (k : String) (i : Nat) (t : Str) (ht : Plain t) (l : Leaf K) (hl : leaf? r k i t = some l) :
    l.secondary = (l.contrib.map Prod.snd).sum ∧ (l.contrib.map Prod.fst).Nodup ∧
    (env.hasDetector = false → l.rate = (l.primary + l.secondary + l.tertiary) * l.efficiency) := by
  have hf := calculate_final env hreg o hn reqs rays r h
  obtain ⟨esc, hv⟩ := hf.line k i t l ht hl
  refine ⟨hv.secondary, SMap.keys_nodup hv.sorted, fun hd => ?_⟩
  have he := hv.escapes
  unfold escapesOf at he
  rw [hd] at he
  simp only [Bool.false_eq_true, if_false, Outcome.ok.injEq] at he
  subst he
  rw [hv.rate]
  simp [escapeTotal]

/-! ### A concrete case: two layers of an alloy in front of a detector with escape -/

/-- The coefficients of the example. -/
def exMix (e : ℚ) : Mix ℚ :=
  { energy := e, coherent := 1 / 10, compton := 0, pair := 0, photoelectric := 1 + 1 / (1 + e), total := 11 / 10 + 1 / (1 + e) }

/-- An alloy of chromium and iron: the iron lines excite chromium. -/
def exEnv : Env ℚ :=
  { layers := [{ density := 1, thickness := 1 / 10, composition := [("Cr", 1 / 2), ("Fe", 1 / 2)], geometric := 1 / 2 },
               { density := 2, thickness := 1 / 5, composition := [("Fe", 1)], geometric := 1 / 2 }]
    sinIn := 1 / 2, sinOut := 1 / 2
    exp := fun x => 1 / (1 - x)
    mu := fun _ e => .ok (exMix e).total
    mus := fun _ es => .ok (es.map exMix)
    families := fun i _ => .ok (if i = 0 then [("Fe K", 7), ("Cr K", 6)] else [("Fe K", 7)])
    excite := fun el _ w =>
      if el = "Cr" then .ok [("KL3".toList, { energy := 5, rate := w / 2, factor := w }),
                             ("KM3".toList, { energy := 11 / 2, rate := w / 4, factor := w })]
      else if el = "Fe" then .ok [("KL3".toList, { energy := 13 / 2, rate := w / 2, factor := w })]
      else .throw .invalidArgument
    threshold := fun el _ => if el = "Cr" then .ok 6 else .ok 7
    transmission := fun _ e => .ok (1 / (1 + e))
    attenuators := [fun _ => .ok (9 / 10)]
    tables := []
    hasDetector := true
    intrinsic := fun _ => .ok (4 / 5)
    escape := fun e => .ok [("Si_KL3_esc", { energy := e - 17 / 10, rate := 1 / 50 }),
                            ("Si_KM3_esc", { energy := e - 18 / 10, rate := 1 / 100 })]
    l0 := fun _ _ _ _ _ => .ok (1 / 10)
    x := fun _ _ _ _ _ _ _ => .ok (1 / 20) }

theorem exEnv_regular : Regular exEnv := by
  refine ⟨?_, ?_, ?_⟩
  · intro e esc h
    simp only [exEnv, Outcome.ok.injEq] at h
    subst h
    unfold SMap.Sorted
    simp only [List.pairwise_cons, List.mem_singleton, forall_eq, List.not_mem_nil, false_imp_iff, implies_true,
      List.Pairwise.nil, and_true]
    decide +kernel
  · intro el e w fs h
    simp only [exEnv] at h
    split at h
    · simp only [Outcome.ok.injEq] at h
      subst h
      unfold SMap.Sorted
      simp only [List.pairwise_cons, List.mem_singleton, forall_eq, List.not_mem_nil, false_imp_iff, implies_true,
        List.Pairwise.nil, and_true]
      decide +kernel
    · split at h
      · simp only [Outcome.ok.injEq] at h
        subst h
        exact List.pairwise_singleton ..
      · cases h
  · intro el e w fs h
    simp only [exEnv] at h
    split at h
    · simp only [Outcome.ok.injEq] at h
      subst h
      simp only [List.map_cons, List.map_nil]
      decide
    · split at h
      · simp only [Outcome.ok.injEq] at h
        subst h
        simp only [List.map_cons, List.map_nil]
        decide
      · cases h

theorem exEnv_names : EscapeNames exEnv := by
  refine ⟨?_, ?_, ?_⟩
  · intro e esc h
    simp only [exEnv, Outcome.ok.injEq] at h
    subst h
    intro x hx
    simp only [List.mem_cons, List.not_mem_nil, or_false] at hx
    rcases hx with rfl | rfl <;> (simp only; decide)
  · intro e esc h
    simp only [exEnv, Outcome.ok.injEq] at h
    subst h
    intro x hx
    simp only [List.mem_cons, List.not_mem_nil, or_false] at hx
    rcases hx with rfl | rfl <;> norm_num
  · intro el e w fs h
    simp only [exEnv] at h
    split at h
    · simp only [Outcome.ok.injEq] at h
      subst h
      simp only [List.map_cons, List.map_nil]
      decide
    · split at h
      · simp only [Outcome.ok.injEq] at h
        subst h
        simp only [List.map_cons, List.map_nil]
        decide
      · cases h

/-- The requests of the example. -/
def exReqs : List (Outcome Request) :=
  [.ok { element := "Cr", family := "K", layer := -1 }, .ok { element := "Fe", family := "K", layer := -1 }]

/-- The example with three rays and all orders: line and escape peaks of chromium in the first layer. -/
example : (match calculate exEnv { secondary := 2, useMassFractions := true, limit := 0 } exReqs
      [(10, 1), (20, 2), (13 / 2, 5)] with
    | .ok r => match leaf? r "Cr K" 0 "KL3".toList with
      | some l => decide (l.primary = 113943 / 425753 ∧ l.tertiary > 0 ∧ l.contrib.length = 4 ∧
          (peaksOf (linesOf r "Cr K" 0) "KL3".toList).length = 2 ∧ l.rate > 0)
      | none => false
    | _ => false) = true := by decide +kernel

end Multilayer
end Fisx
