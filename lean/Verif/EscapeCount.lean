import Verif.LibraryEscape

/-!
# C91: when the number and the separation of the escape peaks are those asked for
-/

set_option linter.unusedSectionVars false

namespace Fisx
namespace Library

variable {K : Type} [Field K] [LinearOrder K] [IsStrictOrderedRing K] [Trans K] [Trig K]

theorem escapeLines_length (pf : String → Outcome (SMap String K)) (L : Library K) (d : Nat) (key : EscapeKey K) (E mu : K)
    (n : String) : ∀ (lines : List (Str × Factor K)) (acc r : SMap String (Line K)),
    escapeLines pf L d key E mu n lines acc = .ok r → r.length ≤ acc.length + lines.length
  | [], acc, r, h => by
    cases h
    exact Nat.le_refl _
  | (t, f) :: rest, acc, r, h => by
    unfold escapeLines at h
    obtain ⟨mf, -, h⟩ := Outcome.bind_eq_ok.1 h
    have ih := escapeLines_length pf L d key E mu n rest _ r h
    rw [List.length_cons]
    split at ih
    · refine ih.trans ?_
      have := Element.insert_length_le acc (escapeName n t) (⟨E - f.energy, if key.thickness > 0 then
        escapeRate (sinAlpha key.alphaIn) mu mf.total f.rate / intrinsicEfficiency mu key.thickness (sinAlpha key.alphaIn)
        else escapeRate (sinAlpha key.alphaIn) mu mf.total f.rate⟩ : Line K)
      omega
    · omega

theorem escapeElements_length (pf : String → Outcome (SMap String K)) (L : Library K) (d : Nat) (key : EscapeKey K) (E mu : K)
    (N : String × K → Nat) : ∀ (items : List (String × K)) (acc r : SMap String (Line K)),
    (∀ p ∈ items, ∀ e lines, L.getElement p.1 = .ok e → e.data.getFactors E p.2 = .ok lines → lines.length ≤ N p) →
    escapeElements pf L d key E mu items acc = .ok r → r.length ≤ acc.length + (items.map N).sum
  | [], acc, r, _, h => by
    cases h
    exact Nat.le_refl _
  | (n, w) :: rest, acc, r, hN, h => by
    unfold escapeElements at h
    obtain ⟨e, he, h⟩ := Outcome.bind_eq_ok.1 h
    obtain ⟨f, hf, h⟩ := Outcome.bind_eq_ok.1 h
    obtain ⟨acc', ha, h⟩ := Outcome.bind_eq_ok.1 h
    have h1 := escapeLines_length pf L d key E mu n f acc acc' ha
    have h2 := escapeElements_length pf L d key E mu N rest acc' r (fun p hp => hN p (List.mem_cons_of_mem _ hp)) h
    have h3 := hN (n, w) (List.mem_cons_self ..) e f he hf
    rw [List.map_cons, List.sum_cons]
    omega

/-- **C91** (what holds) The number of peaks is at most the number asked for when the elements of the detector have no more
lines (`N` bounds the number of lines each element emits at this energy) than that. -/
theorem C91_number_partial (pf : String → Outcome (SMap String K)) (L : Library K) (d : Nat) (key : EscapeKey K) (E : K)
    (r : SMap String (Line K)) (h : L.computeEscape pf d key E = .ok r) (N : String × K → Nat)
    (hN : ∀ p ∈ key.composition, ∀ e lines, L.getElement p.1 = .ok e → e.data.getFactors E p.2 = .ok lines → lines.length ≤ N p)
    (hle : ((key.composition.map N).sum : Int) ≤ key.nThreshold) : (r.length : Int) ≤ key.nThreshold := by
  unfold computeEscape at h
  obtain ⟨mi, -, h⟩ := Outcome.bind_eq_ok.1 h
  have := escapeElements_length pf L d key E mi.total N _ _ _ hN h
  simp only [List.length_nil, Nat.zero_add] at this
  exact le_trans (by exact_mod_cast this) hle

/-- **C91** (what holds) The energies of two peaks differ at least by the energy threshold when those of the lines of the
elements of the detector do. -/
theorem C91_separation_partial (pf : String → Outcome (SMap String K)) (L : Library K) (d : Nat) (key : EscapeKey K) (E : K)
    (r : SMap String (Line K)) (h : L.computeEscape pf d key E = .ok r)
    (hsep : ∀ n w e lines t f n' w' e' lines' t' f', (n, w) ∈ key.composition → L.getElement n = .ok e →
      e.data.getFactors E w = .ok lines → (t, f) ∈ lines → (n', w') ∈ key.composition → L.getElement n' = .ok e' →
      e'.data.getFactors E w' = .ok lines' → (t', f') ∈ lines' → (n, t) ≠ (n', t') → key.energyThreshold ≤ |f.energy - f'.energy|) :
    ∀ p ∈ r, ∀ q ∈ r, p.1 ≠ q.1 → key.energyThreshold ≤ |p.2.energy - q.2.energy| := by
  intro p hp q hq hne
  obtain ⟨mi, n, t, f, mf, h1⟩ := (C33_peaks pf L d key E r h).2 p hp
  obtain ⟨mi', n', t', f', mf', h2⟩ := (C33_peaks pf L d key E r h).2 q hq
  obtain ⟨w, e, lines, a1, a2, a3, a4⟩ := h1.element
  obtain ⟨w', e', lines', b1, b2, b3, b4⟩ := h2.element
  have := hsep n w e lines t f n' w' e' lines' t' f' a1 a2 a3 a4 b1 b2 b3 b4 (by
    intro hh
    obtain ⟨hn, ht⟩ := Prod.mk.inj hh
    apply hne
    rw [h1.name_eq, h2.name_eq, hn, ht])
  rw [h1.energy_eq, h2.energy_eq, show E - f.energy - (E - f'.energy) = f'.energy - f.energy by ring, abs_sub_comm]
  exact this


/-! ## Case -/

section case

attribute [local instance] escapeTrans
local instance : Trig ℚ := ⟨fun _ => 1⟩

/-- A detector made of iron only; three peaks at least 0.1 keV apart are asked for. -/
def ironKey : EscapeKey ℚ :=
  { composition := [("Fe", 3)], energyThreshold := 1 / 10, intensityThreshold := 0, nThreshold := 3, alphaIn := 90, thickness := 0 }

/-- The energies of its lines. -/
theorem iron_lines : (((detectorLibrary []).getElement "Fe").bind (fun e => e.data.getFactors 8 3)).bind
    (fun f => .ok (f.map (fun p => (p.1, p.2.energy)))) =
      .ok [("KL2".toList, 31 / 5), ("KL3".toList, 63 / 10), ("L3M5".toList, 697 / 1000)] := by
  decide +kernel

/-- The hypotheses of `C91_number_partial` and `C91_separation_partial` hold for it: it has three peaks, not closer than asked. -/
theorem iron_peaks : ∃ r, (detectorLibrary []).computeEscape examplePf 5 ironKey 8 = .ok r ∧ r.length = 3 ∧
    (r.length : Int) ≤ ironKey.nThreshold ∧ ∀ p ∈ r, ∀ q ∈ r, p.1 ≠ q.1 → ironKey.energyThreshold ≤ |p.2.energy - q.2.energy| := by
  have hc : countPeaks ((detectorLibrary []).computeEscape examplePf 5 ironKey 8) = .ok 3 := by decide +kernel
  obtain ⟨r, hr, hlen⟩ := Outcome.bind_eq_ok.1 hc
  have hlen : r.length = 3 := by injection hlen
  have hl : ∀ n w e lines, (n, w) ∈ ironKey.composition → (detectorLibrary []).getElement n = .ok e →
      e.data.getFactors 8 w = .ok lines → n = "Fe" ∧ lines.map (fun p => (p.1, p.2.energy)) =
        [("KL2".toList, 31 / 5), ("KL3".toList, 63 / 10), ("L3M5".toList, 697 / 1000)] := by
    intro n w e lines hm he hf
    simp only [ironKey, List.mem_singleton, Prod.mk.injEq] at hm
    obtain ⟨rfl, rfl⟩ := hm
    have := iron_lines
    rw [he] at this
    simp only [Outcome.bind] at this
    rw [hf] at this
    simp only [Outcome.ok.injEq] at this
    exact ⟨rfl, this⟩
  refine ⟨r, hr, hlen, C91_number_partial _ _ _ _ _ r hr (fun _ => 3) ?_ ?_, C91_separation_partial _ _ _ _ _ r hr ?_⟩
  · intro p hp e lines he hf
    have := congrArg List.length (hl p.1 p.2 e lines hp he hf).2
    rw [List.length_map] at this
    exact this.le
  · simp [ironKey]
  · intro n w e lines t f n' w' e' lines' t' f' a1 a2 a3 a4 b1 b2 b3 b4 hne
    obtain ⟨hn, h1⟩ := hl n w e lines a1 a2 a3
    obtain ⟨hn', h2⟩ := hl n' w' e' lines' b1 b2 b3
    have m1 := List.mem_map_of_mem (f := fun p : Str × Factor ℚ => (p.1, p.2.energy)) a4
    have m2 := List.mem_map_of_mem (f := fun p : Str × Factor ℚ => (p.1, p.2.energy)) b4
    rw [h1] at m1
    rw [h2] at m2
    simp only [List.mem_cons, List.not_mem_nil, or_false, Prod.mk.injEq] at m1 m2
    subst hn hn'
    rcases m1 with ⟨rfl, e1⟩ | ⟨rfl, e1⟩ | ⟨rfl, e1⟩ <;> rcases m2 with ⟨rfl, e2⟩ | ⟨rfl, e2⟩ | ⟨rfl, e2⟩ <;>
      first
      | exact absurd rfl hne
      | (rw [e1, e2]; norm_num [ironKey, abs_le, le_abs])

end case

end Library
end Fisx
