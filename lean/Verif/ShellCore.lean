import Verif.ShellTransfer

/-!
# What the calls on a shell keep

Every call leaves a shell whose ratios are computed from its rates (`Shell.Core`).
-/

set_option linter.unusedSectionVars false

namespace Fisx

variable {K : Type} [Field K] [LinearOrder K] [IsStrictOrderedRing K]

namespace Shell

theorem ratios_sorted {rad : SMap Str K} (hs : SMap.Sorted rad) : SMap.Sorted (fluorescenceRatios rad) := by
  rw [fluorescenceRatios_eq rad hs]
  exact SMap.sorted_mapVal (SMap.sorted_filter hs _) (fun e => e.2 / ((rad.filter (fun e => e.1 ≠ Shell.total)).map Prod.snd).sum)

theorem core_mk {name : Str} {s : Shell K} (h : mk? name = .ok s) : Core s := by
  have hi := inv_mk h
  obtain ⟨rad, h1, h2, h3⟩ := hi.fluo
  refine ⟨hi.wf, hi.sorted, ?_, hi.nonrad⟩
  rw [h3]
  exact ratios_sorted h1

theorem core_radiative {s : Shell K} (h : Core s) (l : List Str) (v : List K) : Core (s.setRadiative l v).2 := by
  have hsort := radiativeLoop_sorted s.name l v 0 ([] : SMap Str K) SMap.sorted_nil
  unfold setRadiative
  split
  · rename_i m hm
    rw [hm] at hsort
    refine ⟨h.wf, h.sorted, ratios_sorted hsort, ?_⟩
    rcases h.nonrad with hn | hn
    · exact Or.inl hn
    · right
      have : ∀ (r f : SMap Str K), updateNonradiative { s with radiative := r, fluorescence := f }
          = { updateNonradiative s with radiative := r, fluorescence := f } := fun _ _ => rfl
      rw [this, hn]
  · rename_i o m hne hm
    refine ⟨h.wf, h.sorted, h.lines, ?_⟩
    rcases h.nonrad with hn | hn
    · exact Or.inl hn
    · right
      have : ∀ (r : SMap Str K), updateNonradiative { s with radiative := r }
          = { updateNonradiative s with radiative := r } := fun _ => rfl
      rw [this, hn]

theorem core_nonradiative {s : Shell K} (h : Core s) (l : List Str) (v : List K) (hlen : l.length ≤ v.length) :
    Core (s.setNonradiative l v).2 := by
  have hok := nonradiativeLoop_ok l v 0 ([] : SMap Str K) (by omega)
  have hsort := nonradiativeLoop_sorted l v 0 ([] : SMap Str K) SMap.sorted_nil
  unfold setNonradiative
  split
  · rename_i m hm
    rw [hm] at hsort
    exact ⟨h.wf, withTotal_sorted hsort, h.lines, Or.inr (update_idem _)⟩
  · rename_i o m hne hm
    rw [hm] at hok
    exact absurd hok hne

theorem core_constants {s : Shell K} (h : Core s) (m : SMap Str K) : Core (s.setShellConstants m).2 := by
  refine ⟨wf_step h.wf (.setShellConstants m), h.sorted, h.lines, ?_⟩
  rcases h.nonrad with hn | hn
  · exact Or.inl hn
  · right
    have : ∀ (c : SMap Str K), updateNonradiative { s with constants := c }
        = { updateNonradiative s with constants := c } := fun _ => rfl
    show updateNonradiative { s with constants := (constantsLoop m s.constants).2 }
        = { s with constants := (constantsLoop m s.constants).2 }
    rw [this, hn]

end Shell
end Fisx
