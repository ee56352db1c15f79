import Mathlib.Data.List.Nodup
import Verif.ShellProps

/-!
# The overloads of the transition setters of a shell, and the order of their arguments (C139)
-/

set_option linter.unusedSectionVars false

namespace Fisx

variable {K : Type} [Field K] [LinearOrder K] [IsStrictOrderedRing K]

theorem Str.upper_upper (s : Str) : s.upper.upper = s.upper := by
  have h : ∀ c : Char, c.toUpper.toUpper = c.toUpper := by
    intro c
    simp only [Char.toUpper]
    split
    · rename_i h
      split
      · rename_i h2
        exfalso
        simp only [UInt32.le_iff_toNat_le, UInt32.toNat_add, UInt32.toNat_sub] at h h2
        simp at h h2
        omega
      · rfl
    · rfl
  unfold Str.upper
  rw [List.map_map]
  exact List.map_congr_left (fun c _ => h c)

namespace Shell

/-- fisx_shell.cpp:284-300, the `char*` overload of `setRadiativeTransitions`; `entries` are the `nValues` pairs that
the two arrays hold. -/
def setRadiativeChars (s : Shell K) (entries : List (Str × K)) : Outcome Unit × Shell K :=
  s.setRadiative ((entries.map Prod.fst).map Str.upper) (entries.map Prod.snd)

theorem radiativeKey_upper (name l : Str) : radiativeKey name l.upper = radiativeKey name l := by
  unfold radiativeKey
  rw [Str.upper_upper]

theorem radiativeLoop_upper (name : Str) (labels : List Str) (values : List K) (i : Nat) (m : SMap Str K) :
    radiativeLoop name (labels.map Str.upper) values i m = radiativeLoop name labels values i m := by
  induction labels generalizing i m with
  | nil => rfl
  | cons l r ih =>
    simp only [List.map_cons, radiativeLoop, radiativeKey_upper, ih]

/-- **C139** The two overloads of `setRadiativeTransitions` with lists agree: same outcome, same shell. -/
theorem C139_radiative_chars (s : Shell K) (entries : List (Str × K)) :
    s.setRadiativeChars entries = s.setRadiative (entries.map Prod.fst) (entries.map Prod.snd) := by
  unfold setRadiativeChars setRadiative
  rw [radiativeLoop_upper]

/-- The loop over pairs. -/
theorem radiativeLoop_pairs (name : Str) (pre e : List (Str × K)) (m : SMap Str K)
    (hk : ∀ x ∈ e, radiativeKey name x.1 ≠ none) :
    radiativeLoop name (e.map Prod.fst) ((pre ++ e).map Prod.snd) pre.length m
      = (.ok (), e.foldl (fun m x => m.insert ((radiativeKey name x.1).getD []) x.2) m) := by
  induction e generalizing pre m with
  | nil => rfl
  | cons x r ih =>
    obtain ⟨k, h⟩ := Option.ne_none_iff_exists'.1 (hk x (by simp))
    have hv : vget ((pre ++ x :: r).map Prod.snd) pre.length = .ok x.2 := by
      unfold vget
      simp
    have := ih (pre ++ [x]) (m.insert k x.2) (fun y hy => hk y (by simp [hy]))
    simp only [List.append_assoc, List.singleton_append, List.length_append, List.length_singleton] at this
    simp only [List.map_cons, radiativeLoop, h, hv, List.foldl_cons, Option.getD_some]
    rw [← this]

theorem radiativeLoop_reject (name : Str) (pre e : List (Str × K)) (m : SMap Str K)
    (hk : ∃ x ∈ e, radiativeKey name x.1 = none) :
    (radiativeLoop name (e.map Prod.fst) ((pre ++ e).map Prod.snd) pre.length m).1 = .throw .invalidArgument := by
  induction e generalizing pre m with
  | nil => simp at hk
  | cons x r ih =>
    have hv : vget ((pre ++ x :: r).map Prod.snd) pre.length = .ok x.2 := by
      unfold vget
      simp
    simp only [List.map_cons, radiativeLoop]
    cases h : radiativeKey name x.1 with
    | none => rfl
    | some k =>
      have hk' : ∃ x ∈ r, radiativeKey name x.1 = none := by
        obtain ⟨y, hy, h2⟩ := hk
        rcases List.mem_cons.1 hy with rfl | hy
        · rw [h] at h2; cases h2
        · exact ⟨y, hy, h2⟩
      have := ih (pre ++ [x]) (m.insert k x.2) hk'
      simp only [List.append_assoc, List.singleton_append, List.length_append, List.length_singleton] at this
      simp only [hv]
      exact this

theorem nonradiativeLoop_pairs (pre e : List (Str × K)) (m : SMap Str K) :
    nonradiativeLoop (e.map Prod.fst) ((pre ++ e).map Prod.snd) pre.length m
      = (.ok (), e.foldl (fun m x => m.insert x.1.upper x.2) m) := by
  induction e generalizing pre m with
  | nil => rfl
  | cons x r ih =>
    have hv : vget ((pre ++ x :: r).map Prod.snd) pre.length = .ok x.2 := by
      unfold vget
      simp
    have := ih (pre ++ [x]) (m.insert x.1.upper x.2)
    simp only [List.append_assoc, List.singleton_append, List.length_append, List.length_singleton] at this
    simp only [List.map_cons, nonradiativeLoop, hv, List.foldl_cons]
    rw [← this]

/-- Insertions under distinct keys commute. -/
theorem foldl_insert_perm {α : Type} (key : α → Str) (val : α → K) {a b : List α} (h : a.Perm b)
    (hd : (a.map key).Nodup) (m : SMap Str K) (hm : SMap.Sorted m) :
    a.foldl (fun m x => m.insert (key x) (val x)) m = b.foldl (fun m x => m.insert (key x) (val x)) m := by
  have hf : ∀ (l : List α) (m : SMap Str K), SMap.Sorted m →
      SMap.Sorted (l.foldl (fun m x => m.insert (key x) (val x)) m) := by
    intro l
    induction l with
    | nil => intro m hm; exact hm
    | cons x r ih => intro m hm; exact ih _ (SMap.insert_sorted hm _ _)
  induction h generalizing m with
  | nil => rfl
  | cons x _ ih =>
    exact ih (List.nodup_cons.1 hd).2 _ (SMap.insert_sorted hm _ _)
  | swap x y l =>
    simp only [List.foldl_cons]
    congr 1
    have hxy : key x ≠ key y := by
      intro he
      simp [he] at hd
    refine SMap.ext_find? (SMap.insert_sorted (SMap.insert_sorted hm _ _) _ _)
      (SMap.insert_sorted (SMap.insert_sorted hm _ _) _ _) ?_
    intro k
    simp only [SMap.find?_insert]
    by_cases h1 : key x = k
    · have h2 : key y ≠ k := fun h2 => hxy (h1.trans h2.symm)
      simp [h1, h2]
    · simp [h1]
  | trans h1 _ ih1 ih2 =>
    rw [ih1 hd m hm]
    exact ih2 ((h1.map key).nodup_iff.1 hd) m hm

/-- **C139** The order of the radiative transitions does not matter: when no two labels denote the same transition,
every permutation of the pairs gives the same shell; and the call is rejected for one order exactly when it is for
every other. -/
theorem C139_radiative_order (s : Shell K) {a b : List (Str × K)} (h : a.Perm b) :
    (((a.map fun x => radiativeKey s.name x.1).Nodup ∧ ∀ x ∈ a, radiativeKey s.name x.1 ≠ none) →
      s.setRadiative (a.map Prod.fst) (a.map Prod.snd) = s.setRadiative (b.map Prod.fst) (b.map Prod.snd)) ∧
    (s.setRadiative (a.map Prod.fst) (a.map Prod.snd)).1 = (s.setRadiative (b.map Prod.fst) (b.map Prod.snd)).1 := by
  have hok : ∀ e : List (Str × K), (∀ x ∈ e, radiativeKey s.name x.1 ≠ none) →
      radiativeLoop s.name (e.map Prod.fst) (e.map Prod.snd) 0 []
        = (.ok (), e.foldl (fun (m : SMap Str K) x => m.insert ((radiativeKey s.name x.1).getD []) x.2) []) := by
    intro e he
    simpa using radiativeLoop_pairs s.name [] e [] he
  constructor
  · rintro ⟨hd, hk⟩
    unfold setRadiative
    rw [hok a hk, hok b (fun x hx => hk x (h.mem_iff.2 hx))]
    have hd' : (a.map fun x => (radiativeKey s.name x.1).getD []).Nodup := by
      have : (a.map fun x => (radiativeKey s.name x.1).getD [])
          = (a.map fun x => radiativeKey s.name x.1).map (fun o => o.getD []) := by simp
      rw [this]
      refine List.Nodup.map_on ?_ hd
      intro x hx y hy hxy
      obtain ⟨x1, h1, rfl⟩ := List.mem_map.1 hx
      obtain ⟨y1, h2, rfl⟩ := List.mem_map.1 hy
      obtain ⟨u, hu⟩ := Option.ne_none_iff_exists'.1 (hk x1 h1)
      obtain ⟨w, hw⟩ := Option.ne_none_iff_exists'.1 (hk y1 h2)
      rw [hu, hw] at hxy ⊢
      simpa using hxy
    rw [foldl_insert_perm (fun x => (radiativeKey s.name x.1).getD []) (fun x => x.2) h hd' [] SMap.sorted_nil]
  · have hout : ∀ e : List (Str × K), (s.setRadiative (e.map Prod.fst) (e.map Prod.snd)).1
        = if ∀ x ∈ e, radiativeKey s.name x.1 ≠ none then .ok () else .throw .invalidArgument := by
      intro e
      split
      · rename_i he
        unfold setRadiative
        rw [hok e he]
      · rename_i he
        push Not at he
        have := radiativeLoop_reject s.name [] e [] he
        simp only [List.nil_append, List.length_nil] at this
        unfold setRadiative
        split
        · rename_i m hm
          rw [hm] at this
          cases this
        · rename_i o m _ hm
          rw [hm] at this
          exact this
    rw [hout a, hout b]
    simp only [h.mem_iff]

/-- **C139** The order of the non-radiative transitions does not matter when no two labels are equal up to the case. -/
theorem C139_nonradiative_order (s : Shell K) {a b : List (Str × K)} (h : a.Perm b)
    (hd : (a.map fun x => x.1.upper).Nodup) :
    s.setNonradiative (a.map Prod.fst) (a.map Prod.snd) = s.setNonradiative (b.map Prod.fst) (b.map Prod.snd) := by
  have hok : ∀ e : List (Str × K), nonradiativeLoop (e.map Prod.fst) (e.map Prod.snd) 0 []
        = (.ok (), e.foldl (fun (m : SMap Str K) x => m.insert x.1.upper x.2) []) := by
    intro e
    simpa using nonradiativeLoop_pairs [] e []
  unfold setNonradiative
  rw [hok a, hok b, foldl_insert_perm (fun x : Str × K => x.1.upper) (fun x => x.2) h hd [] SMap.sorted_nil]

/-- **C139** The map overloads: a map whose keys are the labels of a list in any order gives the same shell as the
list. -/
theorem C139_map_overloads (s : Shell K) (m : SMap Str K) (e : List (Str × K)) (h : e.Perm m) :
    (((e.map fun x => radiativeKey s.name x.1).Nodup ∧ ∀ x ∈ e, radiativeKey s.name x.1 ≠ none) →
      s.setRadiativeMap m = s.setRadiative (e.map Prod.fst) (e.map Prod.snd)) ∧
    ((e.map fun x => x.1.upper).Nodup →
      s.setNonradiativeMap m = s.setNonradiative (e.map Prod.fst) (e.map Prod.snd)) :=
  ⟨fun hx => ((C139_radiative_order s h).1 hx).symm, fun hx => (C139_nonradiative_order s h hx).symm⟩

/-- **C139** (missing: shells that already hold transitions) on a shell without non-radiative transitions the `char*`
overload agrees with the list overload. -/
theorem C139_nonradiative_chars_partial (s : Shell K) (hs : s.nonradiative = []) (e : List (Str × K)) :
    s.setNonradiativeChars e = s.setNonradiative (e.map Prod.fst) (e.map Prod.snd) := by
  have := nonradiativeLoop_pairs (K := K) [] e []
  simp only [List.nil_append, List.length_nil] at this
  unfold setNonradiative setNonradiativeChars
  rw [this, hs]

/-- **C139** (violation) On a shell with transitions the `char*` overload keeps those that are not named, and the old
total, while the list overload forgets them. -/
theorem C139_nonradiative_chars_violated : ∃ s0 : Shell ℚ, mk? "K".toList = .ok s0 ∧
    (let s := (s0.setNonradiative ["K-L1L2".toList] [1]).2
     ((s.setNonradiativeChars [("K-L3M1".toList, 5)]).2.nonradiative.find? "K-L1L2".toList = some 1) ∧
     ((s.setNonradiativeChars [("K-L3M1".toList, 5)]).2.nonradiative.find? total = some 1) ∧
     ((s.setNonradiative ["K-L3M1".toList] [5]).2.nonradiative.find? "K-L1L2".toList = none) ∧
     ((s.setNonradiative ["K-L3M1".toList] [5]).2.nonradiative.find? total = some 5)) := by
  refine ⟨_, rfl, ?_⟩
  decide +kernel

/-- The hypotheses are met: three labels, one of them in lower case, in two orders. -/
example : ∃ s0 : Shell ℚ, mk? "K".toList = .ok s0 ∧
    (let a : List (Str × ℚ) := [("kl3".toList, 4), ("KL2".toList, 2), ("KM3".toList, 1)]
     (a.map fun x => radiativeKey s0.name x.1).Nodup ∧ (∀ x ∈ a, radiativeKey s0.name x.1 ≠ none) ∧
     (a.map fun x => x.1.upper).Nodup) := by
  refine ⟨_, rfl, ?_⟩
  decide +kernel

end Shell
end Fisx
