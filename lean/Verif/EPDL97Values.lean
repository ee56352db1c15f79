import Verif.EPDL97Props

/-!
# C23 (exactness at the tabulated energies): the coefficients of EPDL97
-/

set_option linter.unusedSectionVars false

namespace Fisx
namespace EPDL97

section loop

variable {K : Type} [Field K] [LinearOrder K] [IsStrictOrderedRing K] [Trans K]

theorem labelLoop_other {b : SMap Str K} {E : List K} {r : Rows K} {rows : List (List K)} {x : K} {k : Str} :
    ∀ (labels : List (Str × Int)) {acc m : SMap Str K}, (∀ p ∈ labels, p.1 ≠ k) →
    labelLoop b E r rows x labels acc = .ok m → m.find? k = acc.find? k := by
  intro labels
  induction labels with
  | nil => intro acc m _ h; simp only [labelLoop, Outcome.ok.injEq] at h; rw [h]
  | cons p rest ih =>
    intro acc m hne h
    obtain ⟨key, idx⟩ := p
    have hk : key ≠ k := hne (key, idx) (by simp)
    have hr : ∀ p ∈ rest, p.1 ≠ k := fun p hp => hne p (by simp [hp])
    have hins : ∀ v : K, (acc.insert key v).find? k = acc.find? k := by
      intro v
      rw [SMap.find?_insert]
      split
      · rename_i hc; exact absurd hc (by first | exact hk | exact fun hh => hk hh.symm)
      · rfl
    unfold labelLoop at h
    split at h
    · exact ih hr h
    · split at h
      · rw [Outcome.bind_eq_ok] at h
        obtain ⟨v, -, h⟩ := h
        rw [ih hr h, hins]
      · split at h
        · rw [Outcome.bind_eq_ok] at h
          obtain ⟨v, -, h⟩ := h
          rw [ih hr h, hins]
        · exact ih hr h

theorem labelLoop_find {b : SMap Str K} {E : List K} {r : Rows K} {rows : List (List K)} {x : K} {k : Str} {idx : Int}
    (hd : k ∉ derivedKeys) : ∀ (labels : List (Str × Int)) {acc m : SMap Str K}, (labels.map Prod.fst).Nodup →
    (k, idx) ∈ labels → labelLoop b E r rows x labels acc = .ok m →
    (k ∈ plainKeys → ∃ v, plainValue r rows idx x = .ok v ∧ m.find? k = some v) ∧
    (k ∉ plainKeys → k.length < 3 → ∃ v, shellValue b E r rows k idx x = .ok v ∧ m.find? k = some v) := by
  intro labels
  induction labels with
  | nil => intro acc m _ hm; simp at hm
  | cons p rest ih =>
    intro acc m hnd hm h
    obtain ⟨key, i⟩ := p
    rw [List.map_cons, List.nodup_cons] at hnd
    have hfind : ∀ (c : SMap Str K) (v : K), (c.insert k v).find? k = some v := by
      intro c v; rw [SMap.find?_insert]; simp
    rcases List.mem_cons.1 hm with hh | hh
    · injection hh with h1 h2
      subst h1; subst h2
      have hr : ∀ p ∈ rest, p.1 ≠ k := by
        intro p hp hpk
        exact hnd.1 (by rw [← hpk]; exact List.mem_map.2 ⟨p, hp, rfl⟩)
      unfold labelLoop at h
      rw [if_neg hd] at h
      by_cases hp : k ∈ plainKeys
      · rw [if_pos hp, Outcome.bind_eq_ok] at h
        obtain ⟨v, hv, h⟩ := h
        exact ⟨fun _ => ⟨v, hv, by rw [labelLoop_other rest hr h, hfind]⟩, fun hn => absurd hp hn⟩
      · rw [if_neg hp] at h
        refine ⟨fun hn => absurd hn hp, fun _ hl => ?_⟩
        rw [if_pos hl, Outcome.bind_eq_ok] at h
        obtain ⟨v, hv, h⟩ := h
        exact ⟨v, hv, by rw [labelLoop_other rest hr h, hfind]⟩
    · unfold labelLoop at h
      split at h
      · exact ih hnd.2 hh h
      · split at h
        · rw [Outcome.bind_eq_ok] at h
          obtain ⟨v, -, h⟩ := h
          exact ih hnd.2 hh h
        · split at h
          · rw [Outcome.bind_eq_ok] at h
            obtain ⟨v, -, h⟩ := h
            exact ih hnd.2 hh h
          · exact ih hnd.2 hh h

theorem find?_touch {k : Str} {v : K} : ∀ (ks : List Str) (m : SMap Str K), m.find? k = some v →
    (touch m ks).find? k = some v := by
  intro ks
  induction ks with
  | nil => intro m h; exact h
  | cons a rest ih =>
    intro m h
    show (touch (if m.mem a then m else m.insert a 0) rest).find? k = some v
    apply ih
    split
    · exact h
    · rename_i hm
      rw [SMap.find?_insert]
      split
      · rename_i hc
        exfalso
        have : m.find? a = some v := by
          first | rw [hc]; exact h | rw [← hc]; exact h
        apply hm
        unfold SMap.mem
        rw [this]; rfl
      · exact h

theorem find?_finish {k : Str} {v : K} {m : SMap Str K}
    (hk : k ∉ ["pair".toList, "photoelectric".toList, "total".toList]) (h : m.find? k = some v) :
    (finish m).find? k = some v := by
  have hne : ∀ a ∈ ["pair".toList, "photoelectric".toList, "total".toList], ∀ (c : SMap Str K) (y : K),
      c.find? k = some v → (c.insert a y).find? k = some v := by
    intro a ha c y hc
    rw [SMap.find?_insert]
    split
    · rename_i hh
      exact absurd ha (by first | rw [← hh]; exact hk | rw [hh]; exact hk)
    · exact hc
  unfold finish
  exact hne _ (by simp) _ _ (find?_touch _ _ (hne _ (by simp) _ _ (find?_touch _ _ (hne _ (by simp) _ _ h))))

end loop

/-- The names of the shells of which the data have a column. -/
def shellNames : List Str := ["K".toList, "L1".toList, "L2".toList, "L3".toList, "M1".toList, "M2".toList, "M3".toList,
  "M4".toList, "M5".toList]

theorem plain_names : ∀ s ∈ ["coherent".toList, "compton".toList, "all other".toList],
    s ∉ derivedKeys ∧ s ∈ plainKeys ∧ s ∉ ["pair".toList, "photoelectric".toList, "total".toList] := by decide +kernel

theorem shell_names : ∀ s ∈ shellNames,
    s ∉ derivedKeys ∧ s ∉ plainKeys ∧ s.length < 3 ∧ s ∉ ["pair".toList, "photoelectric".toList, "total".toList] := by
  decide +kernel

theorem fromTable_rows (b : SMap Str ℝ) (E : List ℝ) (rows : List (List ℝ)) (labels : SMap Str Int) (x : ℝ) (last : Nat) :
    fromTable b E rows labels x last = (do
      let (r, l) ← rowsFor E x last
      let m ← labelLoop b E r rows x labels [("energy".toList, x)]
      return (finish m, l)) := by
  unfold fromTable rowsFor
  cases interpolationIndices E x last with
  | ok v => cases hv : adjustRows E x v.1 <;> simp [hv]
  | throw _ => rfl
  | ub _ => rfl
  | diverge => rfl

theorem of_steps {α β γ : Type} {o : Outcome (α × Nat)} {f : α → Outcome β} {g : β → γ} {r : α} {l l' : Nat} {m : γ}
    (ho : o = .ok (r, l)) (h : (do
      let (r, l) ← o
      let m ← f r
      return (g m, l)) = Outcome.ok (m, l')) : ∃ m', f r = .ok m' ∧ g m' = m := by
  subst ho
  cases hf : f r with
  | ok v =>
    simp only [Outcome.ok_bind, hf, Outcome.pure_eq, Outcome.ok.injEq, Prod.mk.injEq] at h
    exact ⟨v, rfl, h.1⟩
  | throw _ => simp [hf] at h
  | ub _ => simp [hf] at h
  | diverge => simp [hf] at h

/-- **C23** (tabulated energies) For a table of the kind found in evaluated data (`GridTable`, `GridColumn`), at a
tabulated energy that is below the next one (at an absorption edge: the upper copy), whatever the calls made before:
coherent, Compton and "all other" are the tabulated values; so is each shell from K to M5 bound by no more than the
energy, where the table has data; and a shell bound by more gives 0. -/
theorem C23_tabulated (b : SMap Str ℝ) (E : List ℝ) (rows : List (List ℝ)) (labels : SMap Str Int)
    (h : GridTable E) (hnd : (labels.map Prod.fst).Nodup) (k : Nat) (hk : k + 1 < E.length) (hlt : E[k] < E[k + 1])
    (last last' : Nat) (m : SMap Str ℝ) (hm : fromTable b E rows labels E[k] last = .ok (m, last'))
    (key : Str) (idx : Int) (hkey : (key, idx) ∈ (labels : List (Str × Int))) (c : Nat → ℝ)
    (hc : GridColumn E rows idx c) :
    (key ∈ ["coherent".toList, "compton".toList, "all other".toList] → m.find? key = some (c k)) ∧
    (key ∈ shellNames → ∀ bind, b.find? key = some bind →
      (0 < bind → bind ≤ E[k] → 0 < c k → m.find? key = some (c k)) ∧ (E[k] < bind → m.find? key = some 0)) := by
  obtain ⟨r, l, e, hr⟩ := rowsFor_node h hk hlt last
  rw [fromTable_rows] at hm
  obtain ⟨m', h1, h2⟩ := of_steps (f := fun r => labelLoop b E r rows E[k] labels [("energy".toList, E[k])])
    (g := finish) e hm
  simp only at h1
  rw [← h2]
  constructor
  · intro hs
    obtain ⟨g1, g2, g3⟩ := plain_names _ hs
    obtain ⟨v, hv, hf⟩ := (labelLoop_find g1 labels hnd hkey h1).1 g2
    rw [plain_node h hc hk hlt hr] at hv
    rw [Outcome.ok.inj hv]
    exact find?_finish g3 hf
  · intro hs bind hb
    obtain ⟨g1, g2, g3, g4⟩ := shell_names _ hs
    obtain ⟨v, hv, hf⟩ := (labelLoop_find g1 labels hnd hkey h1).2 g2 g3
    unfold shellValue at hv
    rw [hb] at hv
    simp only at hv
    constructor
    · intro p1 p2 p3
      rw [if_pos ⟨p2, p1⟩, excited_node h hc hk hlt hr, if_pos p3] at hv
      rw [Outcome.ok.inj hv]
      exact find?_finish g4 hf
    · intro p1
      rw [if_neg (fun hh => absurd hh.1 (not_le.2 p1))] at hv
      rw [Outcome.ok.inj hv]
      exact find?_finish g4 hf

/-- The hypotheses on the table are met by one with an absorption edge at 2 keV; the theorem is used at its upper copy. -/
example (last last' : Nat) (m : SMap Str ℝ)
    (hm : fromTable [("K".toList, (2 : ℝ))] [1, 2, 2, 3, 4] [[1, 9, 0], [2, 7, 0], [2, 7, 40], [3, 5, 30], [4, 4, 20]]
      exampleLabels 2 last = .ok (m, last')) : m.find? "K".toList = some 40 := by
  have hg : GridTable ([1, 2, 2, 3, 4] : List ℝ) := by
    refine ⟨by simp, ?_, ?_, ?_, ?_⟩
    · intro x hx
      simp only [List.mem_cons, List.not_mem_nil, or_false] at hx
      rcases hx with rfl | rfl | rfl | rfl | rfl <;> norm_num
    · simp only [List.pairwise_cons, List.mem_cons, List.not_mem_nil, or_false, forall_eq_or_imp, forall_eq,
        List.Pairwise.nil, and_true, false_imp_iff, implies_true]
      norm_num
    · intro i hi
      have hi : i + 1 < 5 := hi
      obtain h : i = 0 ∨ i = 1 ∨ i = 2 ∨ i = 3 := by omega
      rcases h with rfl | rfl | rfl | rfl <;> norm_num
    · intro i hi
      have hi : i + 2 < 5 := hi
      obtain h : i = 0 ∨ i = 1 ∨ i = 2 := by omega
      rcases h with rfl | rfl | rfl <;> norm_num
  have hc : GridColumn ([1, 2, 2, 3, 4] : List ℝ) [[1, 9, 0], [2, 7, 0], [2, 7, 40], [3, 5, 30], [4, 4, 20]] 2
      (fun i => [(0 : ℝ), 0, 40, 30, 20].getD i 0) := by
    refine ⟨?_, ?_, ?_, ?_⟩
    · intro i hi
      have hi : i < 5 := hi
      interval_cases i <;> rfl
    · intro i hi
      have hi : i < 5 := hi
      interval_cases i <;> norm_num
    · intro i hi
      have hi : i + 1 < 5 := hi
      obtain h : i = 0 ∨ i = 1 ∨ i = 2 ∨ i = 3 := by omega
      rcases h with rfl | rfl | rfl | rfl <;> norm_num
    · intro i hi
      have hi : i + 1 < 5 := hi
      obtain h : i = 0 ∨ i = 1 ∨ i = 2 ∨ i = 3 := by omega
      rcases h with rfl | rfl | rfl | rfl <;> norm_num
  have := ((C23_tabulated [("K".toList, (2 : ℝ))] _ _ exampleLabels hg (by decide +kernel) 2 (by simp) (by simp; norm_num)
    last last' m hm "K".toList 2 (by decide +kernel) _ hc).2 (by decide +kernel) 2 rfl).1 (by norm_num) (by simp) (by simp)
  simpa using this

end EPDL97
end Fisx
