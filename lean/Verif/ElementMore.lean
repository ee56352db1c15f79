import Verif.ElementProps
import Verif.ShellOverloads

/-!
# C53 (all the lines of the excited shells), C139 (the overloads of `fisx::Element`)
-/

set_option linter.unusedSectionVars false

namespace Fisx
namespace Element

variable {K : Type} [Field K] [LinearOrder K] [IsStrictOrderedRing K]

/-- The line `t` is in the table with its energy. -/
def HasLine (e : Element K) (t : Str) (m : SMap Str K) : Prop :=
  ∃ v, m.find? t = some v ∧ e.getTransitionEnergy t = .ok v

theorem HasLine.keep {e : Element K} {s : Shell K} {t : Str} : ∀ (ratios : List (Str × K)) {acc out : SMap Str K},
    HasLine e t acc → emittedOfShell e s ratios acc = .ok out → HasLine e t out := by
  intro ratios
  induction ratios with
  | nil => intro acc out ha h; simp only [emittedOfShell, Outcome.ok.injEq] at h; exact h ▸ ha
  | cons a r ih =>
    intro acc out ha h
    obtain ⟨t', r'⟩ := a
    unfold emittedOfShell at h
    rw [Outcome.bind_eq_ok] at h
    obtain ⟨w, -, h⟩ := h
    split at h
    · rw [Outcome.bind_eq_ok] at h
      obtain ⟨en, hen, h⟩ := h
      refine ih ?_ h
      by_cases htt : t = t'
      · subst htt
        exact ⟨en, by rw [SMap.find?_insert]; simp, hen⟩
      · obtain ⟨v, h1, h2⟩ := ha
        refine ⟨v, ?_, h2⟩
        rw [SMap.find?_insert]
        split
        · rename_i hc; exact absurd hc (by first | exact htt | exact fun hh => htt hh.symm)
        · exact h1
    · exact ih ha h

theorem HasLine.made {e : Element K} {s : Shell K} {t : Str} {w : K} (hw : s.getFluorescenceYield = .ok w) (h0 : 0 < w) :
    ∀ (ratios : List (Str × K)) {acc out : SMap Str K} {r : K}, (t, r) ∈ ratios →
    emittedOfShell e s ratios acc = .ok out → HasLine e t out := by
  intro ratios
  induction ratios with
  | nil => intro acc out r hr; simp at hr
  | cons a rest ih =>
    intro acc out r hr h
    obtain ⟨t', r'⟩ := a
    unfold emittedOfShell at h
    rw [hw] at h
    simp only [Outcome.ok_bind] at h
    rw [if_pos h0, Outcome.bind_eq_ok] at h
    obtain ⟨en, hen, h⟩ := h
    rcases List.mem_cons.1 hr with hh | hh
    · injection hh with h1 h2
      subst h1
      exact HasLine.keep rest ⟨en, by rw [SMap.find?_insert]; simp, hen⟩ h
    · exact ih hh h

theorem HasLine.loop {e : Element K} {x : K} {t : Str} : ∀ (ks : List Str) {acc out : SMap Str K},
    HasLine e t acc → emittedLoop e x ks acc = .ok out → HasLine e t out := by
  intro ks
  induction ks with
  | nil => intro acc out ha h; simp only [emittedLoop, Outcome.ok.injEq] at h; exact h ▸ ha
  | cons k rest ih =>
    intro acc out ha h
    simp only [emittedLoop] at h
    cases hs : e.shells.find? k with
    | none => rw [hs] at h; simp only [Outcome.ok.injEq] at h; exact h ▸ ha
    | some s =>
      rw [hs] at h
      simp only at h
      cases hb : e.binding.find? k with
      | none => rw [hb] at h; simp at h
      | some b =>
        rw [hb] at h
        simp only at h
        split at h
        · exact ih ha h
        · rw [Outcome.bind_eq_ok] at h
          obtain ⟨m, h1, h2⟩ := h
          exact ih (HasLine.keep _ ha h1) h2

/-- **C53** (all lines) Every radiative transition of a shell from K to M5 that is bound by less than the energy and
has a positive fluorescence yield is reported, with its energy, as long as the shells named before it (in the order
K, L1, L2, L3, M1, …) are defined: the search ends at the first one that is not. -/
theorem C53_emitted_all (e : Element K) (x : K) (out : SMap Str K) (h : e.getEmittedXRayLines x = .ok out)
    (i : Nat) (k : Str)
    (hk : ["K".toList, "L1".toList, "L2".toList, "L3".toList, "M1".toList, "M2".toList, "M3".toList, "M4".toList,
      "M5".toList][i]? = some k)
    (hbefore : ∀ j < i, ∀ k', ["K".toList, "L1".toList, "L2".toList, "L3".toList, "M1".toList, "M2".toList, "M3".toList,
      "M4".toList, "M5".toList][j]? = some k' → e.shells.find? k' ≠ none)
    (s : Shell K) (b w r : K) (t : Str) (hs : e.shells.find? k = some s) (hb : e.binding.find? k = some b) (hx : b < x)
    (hw : s.getFluorescenceYield = .ok w) (h0 : 0 < w) (ht : (t, r) ∈ s.fluorescence) :
    ∃ v, out.find? t = some v ∧ e.getTransitionEnergy t = .ok v := by
  have key : ∀ (ks : List Str) (i : Nat) (acc : SMap Str K), ks[i]? = some k →
      (∀ j < i, ∀ k', ks[j]? = some k' → e.shells.find? k' ≠ none) → emittedLoop e x ks acc = .ok out →
      HasLine e t out := by
    intro ks
    induction ks with
    | nil => intro i acc hi; simp at hi
    | cons c rest ih =>
      intro i acc hi hj h
      simp only [emittedLoop] at h
      cases i with
      | zero =>
        simp only [List.getElem?_cons_zero, Option.some.injEq] at hi
        subst hi
        rw [hs, hb] at h
        simp only at h
        rw [if_neg (not_le.2 hx), Outcome.bind_eq_ok] at h
        obtain ⟨m, h1, h2⟩ := h
        exact HasLine.loop _ (HasLine.made hw h0 _ ht h1) h2
      | succ i =>
        have hi' : rest[i]? = some k := by simpa using hi
        have hj' : ∀ j < i, ∀ k', rest[j]? = some k' → e.shells.find? k' ≠ none :=
          fun j hji k' hk' => hj (j + 1) (by omega) k' (by simpa using hk')
        have hc := hj 0 (by omega) c (by simp)
        cases hs' : e.shells.find? c with
        | none => exact absurd hs' hc
        | some s' =>
          rw [hs'] at h
          simp only at h
          cases hb' : e.binding.find? c with
          | none => rw [hb'] at h; simp at h
          | some b' =>
            rw [hb'] at h
            simp only at h
            split at h
            · exact ih i _ hi' hj' h
            · rw [Outcome.bind_eq_ok] at h
              obtain ⟨m, -, h2⟩ := h
              exact ih i _ hi' hj' h2
  exact key _ i [] hk hbefore h

/-- **C139** (elements) The map overloads of an element give it the transitions that the vector overloads give it for
the entries in any order. -/
theorem C139_element_overloads (e : Element K) (sub : Str) (m : SMap Str K) (l : List (Str × K)) (h : l.Perm m) :
    ((∀ s, e.shells.find? sub = some s →
        (l.map fun x => Shell.radiativeKey s.name x.1).Nodup ∧ ∀ x ∈ l, Shell.radiativeKey s.name x.1 ≠ none) →
      (e.setRadiativeMap sub m).1 = (e.setRadiative sub (l.map Prod.fst) (l.map Prod.snd)).1 ∧
      (e.setRadiativeMap sub m).2.shells = (e.setRadiative sub (l.map Prod.fst) (l.map Prod.snd)).2.shells) ∧
    ((l.map fun x => x.1.upper).Nodup →
      e.setNonradiativeMap sub m = e.setNonradiative sub (l.map Prod.fst) (l.map Prod.snd)) := by
  constructor
  · intro hx
    unfold setRadiativeMap setRadiative
    cases hc : checkSubshell e sub with
    | ok s =>
      have hs : e.shells.find? sub = some s := by
        unfold checkSubshell at hc
        split at hc
        · cases hc
        · split at hc
          · cases hc
          · split at hc
            · cases hc
            · rename_i h1; injection hc with hc; rw [h1, hc]
      have := (Shell.C139_map_overloads s m l h).1 (hx s hs)
      simp only
      rw [this]
      cases hr : (s.setRadiative (l.map Prod.fst) (l.map Prod.snd)).1 <;> exact ⟨rfl, rfl⟩
    | throw _ => exact ⟨rfl, rfl⟩
    | ub _ => exact ⟨rfl, rfl⟩
    | diverge => exact ⟨rfl, rfl⟩
  · intro hd
    unfold setNonradiativeMap setNonradiative
    cases hc : checkSubshell e sub with
    | ok s =>
      simp only
      rw [Shell.C139_nonradiative_order s h hd]
    | throw _ => rfl
    | ub _ => rfl
    | diverge => rfl

/-- The hypotheses of `C53_emitted_all` are met: the L3 lines of an element with four shells, only the L3 shell being
excited, and only the K and L3 shells having transitions. -/
example :
    let e : Element ℚ := (((⟨1, [], [], none, [], [], false, [], [], [], false, []⟩ : Element ℚ).setBindingEnergies
      [("K".toList, 9), ("L1".toList, 3), ("L2".toList, 2), ("L3".toList, 1)]).2.setRadiative "L3".toList
        ["L3M1".toList] [1]).2.setShellConstants "L3".toList [("omega".toList, 1 / 2)] |>.2
    e.getEmittedXRayLines (3 / 2) = .ok [("L3M1".toList, 997 / 1000)] ∧ e.binding.find? "L3".toList = some 1 ∧
    ((e.shells.find? "L3".toList).map fun s => (s.getFluorescenceYield, s.fluorescence))
      = some (.ok (1 / 2), [("L3M1".toList, (1 : ℚ))]) ∧
    ∀ k' ∈ ["K".toList, "L1".toList, "L2".toList], e.shells.find? k' ≠ none := by
  decide +kernel

example : [("KM3".toList, (1 : ℚ)), ("KL3".toList, 4)].Perm [("KL3".toList, (4 : ℚ)), ("KM3".toList, 1)] ∧
    ([("KM3".toList, (1 : ℚ)), ("KL3".toList, 4)].map fun x => Shell.radiativeKey "K".toList x.1).Nodup ∧
    (∀ x ∈ [("KM3".toList, (1 : ℚ)), ("KL3".toList, 4)], Shell.radiativeKey "K".toList x.1 ≠ none) := by
  decide +kernel

end Element
end Fisx
