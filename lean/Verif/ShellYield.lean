import Verif.ShellDecay

/-!
# C200: the fluorescence yield of a shell over its whole history

`Shell::getFluorescenceYield` (fisx_shell.cpp:362-367) after any sequence of calls, including rejected ones.
-/

set_option linter.unusedSectionVars false

namespace Fisx.Shell

variable {K : Type} [Field K] [LinearOrder K] [IsStrictOrderedRing K]

/-- Specification: the constants of a shell, by its name. -/
def constantNames (name : Str) : List Str :=
  if name = "L1".toList then ["f12".toList, "f13".toList, "omega".toList]
  else if name = "L2".toList then ["f23".toList, "omega".toList]
  else if name = "M1".toList then ["f12".toList, "f13".toList, "f14".toList, "f15".toList, "omega".toList]
  else if name = "M2".toList then ["f23".toList, "f24".toList, "f25".toList, "omega".toList]
  else if name = "M3".toList then ["f34".toList, "f35".toList, "omega".toList]
  else if name = "M4".toList then ["f45".toList, "omega".toList]
  else ["omega".toList]

/-- Specification: the value that a map of constants gives to the constant `k` of the shell `name`. The entries
are used in the order of their names, up to the first one that is not a constant of the shell. -/
def givenConstant (name : Str) (k : Str) : List (Str × K) → Option K
  | [] => none
  | e :: r =>
    if e.1 ∈ constantNames name then
      match givenConstant name k r with
      | some v => some v
      | none => if e.1 = k then some e.2 else none
    else none

/-- Specification: the value of the constant `k` after a history: the last one given, zero if there is none. -/
def lastConstant (name : Str) (k : Str) (v : K) : List (Op K) → K
  | [] => v
  | .setShellConstants m :: r => lastConstant name k ((givenConstant name k m).getD v) r
  | _ :: r => lastConstant name k v r

/-- The nine shells are created with exactly the constants of the specification, all of them zero. -/
theorem initial_constants {name : Str} {s : Shell K} (h : mk? name = .ok s) :
    s.constants = (constantNames name).map (fun k => (k, (0 : K))) ∧ s.name = name := by
  have hv : name ∈ validNames := by
    by_contra hn
    rw [(C57_constructor (K := K) name).2 hn] at h
    cases h
  simp only [validNames, List.mem_cons, List.not_mem_nil, or_false] at hv
  rcases hv with rfl | rfl | rfl | rfl | rfl | rfl | rfl | rfl | rfl <;>
    (cases h; exact ⟨rfl, rfl⟩)

theorem mem_initial {name : Str} {s : Shell K} (h : mk? name = .ok s) (k : Str) :
    s.constants.mem k = true ↔ k ∈ constantNames name := by
  rw [(initial_constants h).1]
  generalize constantNames name = l
  induction l with
  | nil => simp [SMap.mem]
  | cons a r ih =>
    simp only [SMap.mem, SMap.find?, List.map_cons, List.mem_cons] at ih ⊢
    by_cases hk : k = a
    · subst hk; simp
    · have hk' : ¬ a = k := fun e => hk e.symm
      simp only [hk, hk', if_false, false_or]
      exact ih

theorem find?_initial {name : Str} {s : Shell K} (h : mk? name = .ok s) {k : Str}
    (hk : k ∈ constantNames name) : s.constants.find? k = some 0 := by
  rw [(initial_constants h).1]
  revert hk
  generalize constantNames name = l
  intro hk
  induction l with
  | nil => simp at hk
  | cons a r ih =>
    simp only [SMap.find?, List.map_cons]
    split
    · rfl
    · rename_i hne
      rcases List.mem_cons.1 hk with e | e
      · exact absurd (by first | exact e | exact e.symm) hne
      · exact ih e

/-- The loop of `setShellConstants` gives the constants their values. -/
theorem constantsLoop_given (name : Str) (input : List (Str × K)) (c : SMap Str K)
    (hc : ∀ k, c.mem k = true ↔ k ∈ constantNames name) {k : Str} (hk : k ∈ constantNames name) {w : K}
    (hw : c.find? k = some w) :
    (∀ k, (constantsLoop input c).2.mem k = true ↔ k ∈ constantNames name) ∧
    (constantsLoop input c).2.find? k = some ((givenConstant name k input).getD w) := by
  induction input generalizing c w with
  | nil => exact ⟨hc, by simp [constantsLoop, givenConstant, hw]⟩
  | cons e r ih =>
    obtain ⟨a, v⟩ := e
    by_cases ha : a ∈ constantNames name
    · have hm : c.mem a = true := (hc a).2 ha
      have hc' : ∀ k, (SMap.insert c a v).mem k = true ↔ k ∈ constantNames name := by
        intro k'
        unfold SMap.mem
        rw [SMap.find?_insert]
        split
        · rename_i e; subst e; simp [ha]
        · exact hc k'
      have hl : constantsLoop ((a, v) :: r) c = constantsLoop r (SMap.insert c a v) := by
        simp [constantsLoop, hm]
      rw [hl]
      have hw' : (SMap.insert c a v).find? k = some (if a = k then v else w) := by
        rw [SMap.find?_insert]
        by_cases e : a = k
        · subst e; simp
        · simp only [e, if_false, hw]
      obtain ⟨h1, h2⟩ := ih (SMap.insert c a v) hc' hw'
      refine ⟨h1, ?_⟩
      rw [h2]
      simp only [givenConstant, ha, if_true]
      cases givenConstant name k r with
      | some x => rfl
      | none => by_cases e : a = k <;> simp [e]
    · have hm : c.mem a = false := by
        cases h : c.mem a
        · rfl
        · exact absurd ((hc a).1 h) ha
      have hl : (constantsLoop ((a, v) :: r) c).2 = c := by simp [constantsLoop, hm]
      rw [hl]
      exact ⟨hc, by simp [givenConstant, ha, hw]⟩

/-- **C200** Whatever calls a shell has received, rejected ones included, each of its constants has the last
value given for it, or zero. -/
theorem C200_constants {name : Str} {s0 : Shell K} (h : mk? name = .ok s0) (ops : List (Op K)) :
    (∀ k, (run s0 ops).constants.mem k = true ↔ k ∈ constantNames name) ∧
    (∀ k ∈ constantNames name,
      (run s0 ops).constants.find? k = some (lastConstant name k 0 ops)) := by
  have key : ∀ (ops : List (Op K)) (s : Shell K), (∀ k, s.constants.mem k = true ↔ k ∈ constantNames name) →
      (∀ k, (run s ops).constants.mem k = true ↔ k ∈ constantNames name) ∧
      ∀ k ∈ constantNames name, ∀ w, s.constants.find? k = some w →
        (run s ops).constants.find? k = some (lastConstant name k w ops) := by
    intro ops
    induction ops with
    | nil => intro s hs; exact ⟨hs, fun k _ w hw => hw⟩
    | cons op r ih =>
      intro s hs
      have hr : run s (op :: r) = run (s.step op).2 r := rfl
      rw [hr]
      rcases step_constants s op with ⟨m, rfl⟩ | hc
      · have hst : (s.step (.setShellConstants m)).2.constants = (constantsLoop m s.constants).2 := rfl
        have hom : "omega".toList ∈ constantNames name := by
          unfold constantNames; split_ifs <;> simp
        obtain ⟨w0, hw0⟩ : ∃ w, s.constants.find? "omega".toList = some w := by
          have := (hs "omega".toList).2 hom
          unfold SMap.mem at this
          exact Option.isSome_iff_exists.1 this
        have hmem := (constantsLoop_given name m s.constants hs hom hw0).1
        obtain ⟨i1, i2⟩ := ih (s.step (.setShellConstants m)).2 (by rw [hst]; exact hmem)
        refine ⟨i1, fun k hk w hw => ?_⟩
        exact i2 k hk _ (by rw [hst]; exact (constantsLoop_given name m s.constants hs hk hw).2)
      · obtain ⟨i1, i2⟩ := ih (s.step op).2 (by rw [hc]; exact hs)
        refine ⟨i1, fun k hk w hw => ?_⟩
        cases op with
        | setShellConstants m =>
          have hst : (s.step (.setShellConstants m)).2.constants = (constantsLoop m s.constants).2 := rfl
          exact i2 k hk _ (by rw [hst]; exact (constantsLoop_given name m s.constants hs hk hw).2)
        | _ => exact i2 k hk w (by rw [hc]; exact hw)
  obtain ⟨k1, k2⟩ := key ops s0 (fun k => mem_initial h k)
  exact ⟨k1, fun k hk => k2 k hk 0 (find?_initial h hk)⟩

/-- **C200** The fluorescence yield of a shell is always the last one given, zero if there is none; asking for
it never fails. -/
theorem C200_yield {name : Str} {s0 : Shell K} (h : mk? name = .ok s0) (ops : List (Op K)) :
    (run s0 ops).getFluorescenceYield = .ok (lastConstant name "omega".toList 0 ops) := by
  have hom : "omega".toList ∈ constantNames name := by
    unfold constantNames; split_ifs <;> simp
  unfold getFluorescenceYield
  rw [(C200_constants h ops).2 _ hom]

/-- Three calls on an L1 shell: accepted constants, transitions, and a rejected map whose yield comes after the
invalid name (`f99`), so that only its `f12` is used. -/
example : ∃ s0 : Shell ℚ, mk? "L1".toList = .ok s0 ∧
    (run s0 [.setShellConstants [("f12".toList, 1/5), ("omega".toList, 1/2)],
      .setRadiative ["L1M3".toList] [1],
      .setShellConstants [("f12".toList, 1/4), ("f99".toList, 1), ("omega".toList, 1/3)]]).getFluorescenceYield
      = .ok (1/2) ∧
    lastConstant "L1".toList "f12".toList (0 : ℚ)
      [.setShellConstants [("f12".toList, 1/5), ("omega".toList, 1/2)],
       .setRadiative ["L1M3".toList] [1],
       .setShellConstants [("f12".toList, 1/4), ("f99".toList, 1), ("omega".toList, 1/3)]] = 1/4 := by
  refine ⟨_, rfl, ?_⟩
  decide +kernel

end Fisx.Shell
