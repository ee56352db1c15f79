import Verif.InstallLibrary
import Verif.InstallTable

/-!
# Files of coefficients that are safe (C110)
-/

set_option linter.unusedSectionVars false

namespace Fisx
namespace Library

open Outcome

variable {K : Type} [Field K] [LinearOrder K] [IsStrictOrderedRing K] [Trans K]

/-! ## Specification -/

/-- The scan can be read and every row has a value under each label. -/
def Rectangular (strtod : Str → K) (r : Specfile.Reader) (n : Nat) : Prop :=
  ∃ labels rows, Specfile.getScanLabels r n = .ok labels ∧ Specfile.getScanData strtod r n = .ok rows ∧
    ∀ row ∈ rows, labels.length ≤ row.length

/-- The conditions of C107: EPDL97 has a table for the element, the element answers at every energy with the values of
EPDL97, the first supplied energy is not above all of those of EPDL97, and there are at least as many coherent, Compton and pair
coefficients as energies. -/
structure Adaptable (epdl : EPDL97 K) (e : Element K) (t : FileTable K) : Prop where
  table : ∃ u, epdl.getTable e.atomicNumber = .ok u ∧ 1 < (Element.col u "energy").length ∧
    (∀ x, ∃ m, (e.setAll u).2.getMu x = .ok m) ∧ ∃ x ∈ t.energy.head?, ∃ y ∈ Element.col u "energy", ¬ y < x
  coherent : t.energy.length ≤ t.coherent.length
  compton : t.energy.length ≤ t.compton.length
  pair : t.energy.length ≤ t.pair.length

/-! ## Proof -/

theorem fileColumn_good (i : Nat) (rows : List (List K)) (h : ∀ r ∈ rows, i < r.length) : Good true (fileColumn i rows) := by
  induction rows with
  | nil => trivial
  | cons r rs ih =>
    unfold fileColumn
    refine (vget_good (h r (by simp))).bind (fun v _ => ?_)
    exact (ih (fun x hx => h x (List.mem_cons_of_mem _ hx))).bind (fun _ _ => trivial)

theorem columnsLoop_good (rows : List (List K)) : ∀ (labels : List Str) (i : Nat) (t : FileTable K),
    (∀ r ∈ rows, i + labels.length ≤ r.length) → Good true (columnsLoop rows labels i t) := by
  intro labels
  induction labels with
  | nil => intro i t _; trivial
  | cons l ls ih =>
    intro i t h
    have h' : ∀ r ∈ rows, i + 1 + ls.length ≤ r.length := by
      intro r hr
      have := h r hr
      rw [List.length_cons] at this
      omega
    unfold columnsLoop
    refine Good.ite (fun _ => ?_) (fun _ => ih _ _ h')
    exact (fileColumn_good i rows (fun r hr => by have := h' r hr; omega)).bind (fun c _ => ih _ _ h')

theorem fileTable_good (strtod : Str → K) (r : Specfile.Reader) (n : Nat) (h : Rectangular strtod r n) :
    Good true (fileTable strtod r n) := by
  obtain ⟨labels, rows, h1, h2, h3⟩ := h
  unfold fileTable
  rw [h1, ok_bind, h2, ok_bind]
  exact columnsLoop_good rows labels 0 _ (by simpa using h3)

theorem thenDo_good' {α σ : Type} {o : Outcome α} {s : σ} {f : α → Outcome Unit × σ} (h : Good true o)
    (hf : ∀ a, o = .ok a → Good true (f a).1) : Good true (thenDo o s f).1 := by
  cases o with
  | ok a => exact hf a rfl
  | throw x => exact h
  | ub u => exact h
  | diverge => exact h

theorem muScans_good (epdl : EPDL97 K) (strtod : Str → K) (r : Specfile.Reader) : ∀ (count n : Nat) (L : Library K), Named L →
    n + count ≤ L.elements.length →
    (∀ k, n ≤ k → k < n + count → Rectangular strtod r k) →
    (∀ k e t, n ≤ k → k < n + count → L.elements[k]? = some e → fileTable strtod r k = .ok t → Adaptable epdl e.data t) →
    Good true (muScans epdl strtod r count n L).1 := by
  intro count
  induction count with
  | zero => intro n L _ _ _ _; trivial
  | succ count ih =>
    intro n L hN hlen hrect had
    unfold muScans
    refine thenDo_good' (fileTable_good strtod r n (hrect n (le_refl _) (by omega))) (fun t ht => ?_)
    have hlt : n < L.elements.length := by omega
    refine thenDo_good' (vget_good hlt) (fun e he => ?_)
    have he' : L.elements[n]? = some e := by
      rw [vget_lt _ _ hlt] at he
      injection he with he
      rw [List.getElem?_eq_getElem hlt, he]
    obtain ⟨q1, q2, q3, q4, q5, q6, q7, _, _⟩ := C108_only_that_element epdl L e.name t.energy t.photo t.coherent t.compton
      t.pair n e (hN n e he') he'
    dsimp only
    have hA := had n e t (le_refl _) (by omega) he' ht
    obtain ⟨u, hu, hl, hmu, hx⟩ := hA.table
    have hinst := Element.C107_partial epdl e.data t.energy t.photo t.coherent t.compton t.pair u hu hl hmu hx hA.coherent
      hA.compton hA.pair
    refine thenDo_good' (by rw [q1, good_true_iff]; exact hinst.imp (fun h => ⟨(), h⟩) id) (fun v _ => ?_)
    have hN' : Named (L.setMu epdl e.name t.energy t.photo t.coherent t.compton t.pair).2 := by
      intro m e' hm
      rw [q5]
      by_cases hmn : m = n
      · subst hmn
        rw [q2, Option.some.injEq] at hm
        rw [← hm]
        exact hN m e he'
      · rw [q4 m hmn] at hm
        exact hN m e' hm
    refine ih (n + 1) _ hN' (by rw [q3]; omega) (fun k h1 h2 => hrect k (by omega) (by omega)) ?_
    intro k e' t' h1 h2 h3 h4
    rw [q4 k (by omega)] at h3
    exact had k e' t' (by omega) (by omega) h3 h4

/-- **C110** (part that holds) With at most as many scans as elements, values under all the labels in every row, and tables
that C107 allows for the elements at the positions of the scans, the call returns or throws. Missing: the other files, see
`C110_more_scans_violated` and `C110_no_pair_violated`. -/
theorem C110_safe_partial (epdl : EPDL97 K) (strtod : Str → K) (L : Library K) (text : Option Str) (hN : Named L)
    (hcount : ((Specfile.File.ofText text).lines.filter Specfile.isScan).length ≤ L.elements.length)
    (hrect : ∀ n, n < ((Specfile.File.ofText text).lines.filter Specfile.isScan).length →
      Rectangular strtod (Specfile.setFileName (Specfile.File.ofText text)) n)
    (had : ∀ n e t, n < ((Specfile.File.ofText text).lines.filter Specfile.isScan).length → L.elements[n]? = some e →
      fileTable strtod (Specfile.setFileName (Specfile.File.ofText text)) n = .ok t → Adaptable epdl e.data t) :
    (setMuFile epdl strtod L text).1 = .ok () ∨ ∃ exc, (setMuFile epdl strtod L text).1 = .throw exc := by
  have key : Good true (setMuFile epdl strtod L text).1 := by
    unfold setMuFile
    dsimp only
    rw [Specfile.C39_count]
    split
    · exact rfl
    · exact muScans_good epdl strtod _ _ 0 L hN (by omega) (fun k _ h => hrect k (by omega))
        (fun k e t _ h h1 h2 => had k e t (by omega) h1 h2)
  rw [good_true_iff] at key
  rcases key with ⟨a, h⟩ | h
  · exact Or.inl h
  · exact Or.inr h

/-! ## Example -/

section examples

attribute [local instance] Element.exampleTrans

/-- The file of the example has one scan, for the library of one element, with a value under each of the six labels. -/
example : ((Specfile.File.ofText (some muFile)).lines.filter Specfile.isScan).length = 1 ∧ muLibrary.elements.length = 1 ∧
    Rectangular muNumber (Specfile.setFileName (Specfile.File.ofText (some muFile))) 0 := by
  refine ⟨by decide +kernel, rfl, ?_⟩
  refine ⟨["Energy", "Rayleigh", "Incoherent", "Compton", "Pair", "Photoelectric"].map String.toList,
    [[4, 8, 1, 9, 0, 26], [5, 8, 1, 9, 0, 13]], by decide +kernel, by decide +kernel, by decide⟩

end examples

end Library
end Fisx
