import Verif.InitProps

/-!
# The tables of coefficients of a constructed library (property C122)
-/

set_option linter.unusedSectionVars false

namespace Fisx

namespace EPDL97

variable {K : Type} [Field K] [LinearOrder K] [IsStrictOrderedRing K]

/-- There is a table for each scan. -/
theorem load_length {e : EPDL97 K} {bf : Option (List (Scan K))} {scans : List (Scan K)}
    (h : (setDataDirectory e bf (some scans)).1 = .ok ()) :
    (setDataDirectory e bf (some scans)).2.muEnergy.length = scans.length ∧
    (setDataDirectory e bf (some scans)).2.initialized = true ∧ 99 ≤ scans.length := by
  obtain ⟨bs, r0, t0, scans', hbf, _, _, _, hcf, hc, hres⟩ := load_parts h
  obtain rfl : scans = scans' := by simpa using hcf
  rw [hres]
  refine ⟨?_, rfl, ?_⟩
  · show (loadCrossSections { (new : EPDL97 K) with binding := t0, initialized := true } (some scans)).2.muEnergy.length = _
    clear hres h
    set e0 : EPDL97 K := { (new : EPDL97 K) with binding := t0, initialized := true } with he0
    unfold loadCrossSections at hc ⊢
    simp only at hc ⊢
    split_ifs at hc ⊢ with hlen hlab
    cases hf : (findLabels ((scans.head?.map Scan.labels).getD []) interestingLabels e0.labelIndex).1 with
    | throw x => rw [hf] at hc; cases hc
    | ub x => rw [hf] at hc; cases hc
    | diverge => rw [hf] at hc; cases hc
    | ok u =>
      rw [hf] at hc
      simp only at hc ⊢
      have hv0 : e0.values = [] := rfl
      have hm0 : e0.muEnergy = [] := rfl
      rw [hv0, hm0, resize_empty, resize_empty] at hc ⊢
      obtain ⟨_, _, q3, _⟩ := readScans_ok _ _ scans 0 _ _ (by simp) (by simp) hc
      rw [q3]
      simp
  · by_contra hlt
    unfold loadCrossSections at hc
    simp only at hc
    rw [if_pos (by omega)] at hc
    cases hc

/-- Elements beyond the last scan have the table of the last one. -/
theorem getTable_min (e : EPDL97 K) (n : Nat) (hn : 1 ≤ n) (hl : 1 ≤ e.muEnergy.length) :
    getTable e (n : Int) = getTable e ((min n e.muEnergy.length : Nat) : Int) := by
  have : elementIndex e (n : Int) = elementIndex e ((min n e.muEnergy.length : Nat) : Int) := by
    unfold elementIndex
    split_ifs <;> omega
  unfold getTable
  rw [this, if_neg (by omega : ¬ (n : Int) < 1), if_neg (by omega : ¬ ((min n e.muEnergy.length : Nat) : Int) < 1)]

theorem getTable_congr {a b : EPDL97 K} (h1 : a.initialized = b.initialized) (h2 : a.labelIndex = b.labelIndex)
    (h3 : a.values = b.values) (h4 : a.muEnergy = b.muEnergy) (z : Int) : getTable a z = getTable b z := by
  unfold getTable elementIndex
  rw [h1, h2, h3, h4]

end EPDL97

namespace Element

variable {K : Type} [Field K] [LinearOrder K] [IsStrictOrderedRing K]

theorem setAll_pair {e : Element K} {t : SMap Str (List K)} (h : (e.setAll t).1 = .ok ()) :
    (col t "pair").length > 0 → (col t "pair").length = (col t "energy").length := by
  unfold setAll at h
  simp only at h
  obtain ⟨u, h1, _, _⟩ := thenDo_ok h
  exact (setMass_ok h1).2.2.2.1

end Element

namespace Init

open Loader EPDL97

variable {K : Type} [Field K] [LinearOrder K] [IsStrictOrderedRing K]

theorem crossScans_ok {strtod : Str → K} {text : Option Str} {scans : List (Scan K)}
    (h : crossScans strtod text = .ok (some scans)) :
    Specfile.getNumberOfScans (Specfile.setFileName (Specfile.File.ofText text)) = scans.length ∧
    ∀ (j : Nat) (scan : Scan K), scans[j]? = some scan → FileScan strtod text j scan := by
  unfold crossScans at h
  dsimp only at h
  split_ifs at h with hn
  · cases h
  · obtain ⟨l, h1, h⟩ := Outcome.bind_eq_ok.1 h
    cases h
    obtain ⟨a1, a2⟩ := scansOf_ok h1
    exact ⟨a1.symm, fun j scan hj => by simpa using a2 j scan hj⟩

/-- The EPDL97 object of a library: what its tables are. -/
theorem setUp_epdl {on : Bool} {key : EscapeKey K} {strtod : Str → K} {fs : Files} {dir binding : String} {d : Database K}
    (h : setUp on key strtod fs dir binding = .ok d) : ∃ bf scans,
      Specfile.getNumberOfScans (Specfile.setFileName (Specfile.File.ofText
        (fs (dir ++ "//" ++ "EPDL97_CrossSections.dat")))) = scans.length ∧
      (∀ (j : Nat) (scan : Scan K), scans[j]? = some scan →
        FileScan strtod (fs (dir ++ "//" ++ "EPDL97_CrossSections.dat")) j scan) ∧
      (setDataDirectory (new : EPDL97 K) bf (some scans)).1 = .ok () ∧
      (∀ z, getTable d.epdl z = getTable (setDataDirectory (new : EPDL97 K) bf (some scans)).2 z) ∧
      d.epdl.muEnergy.length = scans.length ∧ 99 ≤ scans.length := by
  obtain ⟨epdl, els, st, h1, h2, _⟩ := setUp_ok h
  obtain ⟨bf, cf, _, _, h4, h5⟩ := loadEpdl_ok h1
  obtain ⟨_, _, _, scans, _, _, _, _, rfl, _⟩ := load_parts (congrArg Prod.fst h5)
  obtain ⟨l1, l2, l3⟩ := load_length (congrArg Prod.fst h5)
  have hep : d.epdl.initialized = epdl.initialized ∧ d.epdl.labelIndex = epdl.labelIndex ∧ d.epdl.values = epdl.values ∧
      d.epdl.muEnergy = epdl.muEnergy := by
    by_cases hb : binding = ""
    · subst hb
      rw [otherBinding_none h2]
      exact ⟨rfl, rfl, rfl, rfl⟩
    · obtain ⟨_, _, _, _, h6⟩ := epdl_second hb h2
      rw [h5] at l2
      rw [h6]
      exact ⟨l2.symm, rfl, rfl, rfl⟩
  obtain ⟨c1, c2⟩ := crossScans_ok h4
  refine ⟨bf, scans, c1, c2, congrArg Prod.fst h5, fun z => ?_, ?_, l3⟩
  · rw [h5]
    exact getTable_congr hep.1 hep.2.1 hep.2.2.1 hep.2.2.2 z
  · rw [hep.2.2.2]
    rw [h5] at l1
    exact l1

/-- **C122** The mass attenuation coefficients of the `n`-th element of a constructed library are those of scan `n` of
`EPDL97_CrossSections.dat` (the last one for the elements without a scan): a point for each row, with its energy and the
coherent and Compton coefficients; no pair production; the photoelectric one is the sum of those of the shells of the file
and of the recalculated one of the outer shells; the total one is the sum. -/
theorem C122_coefficients (on : Bool) (key : EscapeKey K) (strtod : Str → K) (fs : Files) (dir binding : String)
    (d : Database K) (h : setUp on key strtod fs dir binding = .ok d) (n : Nat) (i : Info)
    (hi : defaultElements[n]? = some i) :
    let count := Specfile.getNumberOfScans (Specfile.setFileName (Specfile.File.ofText
      (fs (dir ++ "//" ++ "EPDL97_CrossSections.dat"))))
    ∃ (scan : Scan K) (m : SMap Str (List K)) (idx : String → Nat), 99 ≤ count ∧
      FileScan strtod (fs (dir ++ "//" ++ "EPDL97_CrossSections.dat")) (min (n + 1) count - 1) scan ∧
      getCoefficientTable d i.symbol = .ok m ∧ (∀ w ∈ quantities, ColumnFor scan.labels w (idx w)) ∧
      ((∀ w ∈ quantities, ∀ w' ∈ quantities, w ≠ w' → idx w ≠ idx w') →
        ∀ (j : Nat) (row : List K), scan.rows[j]? = some row →
          (∀ w ∈ ["energy", "coherent", "compton", "pair", "photoelectric", "total"], ∃ c, m.find? w.toList = some c ∧
            c.length = scan.rows.length) ∧
          (∀ w ∈ ["energy", "coherent", "compton"], colAt m w.toList j = row.getD (idx w) 0) ∧
          colAt m "pair".toList j = 0 ∧
          let inner := innerShells.map (fun w => row.getD (idx w) 0)
          let outer := outerShells (min (n + 1) count : Nat) (row.getD (idx "total") 0) (row.getD (idx "compton") 0)
            (row.getD (idx "coherent") 0) (row.getD (idx "all other") 0) inner
          colAt m "photoelectric".toList j = inner.sum + outer ∧
          colAt m "total".toList j = row.getD (idx "coherent") 0 + row.getD (idx "compton") 0 + (inner.sum + outer)) := by
  intro count
  obtain ⟨bf, scans, c1, c2, c3, c4, c5, c6⟩ := setUp_epdl h
  obtain ⟨a, e, e1, e2, _, e4⟩ := setUp_element h hi
  obtain ⟨e0, b, e', t, m1, m2, m3, m4, m5, _⟩ := makeElement_ok e1
  have hz := (table_at hi).2.2
  have hcount : count = scans.length := c1
  have hzn : i.z = ((n + 1 : Nat) : Int) := by rw [hz]; simp
  rw [hzn, getTable_min _ _ (by omega) (by omega), c5, c4] at m4
  rw [hcount]
  set k := min (n + 1) scans.length with hk
  have hlt : k - 1 < scans.length := by omega
  have hs : scans[((k : Int) - 1).toNat]? = some scans[k - 1] := by
    rw [show ((k : Int) - 1).toNat = k - 1 by omega]
    exact List.getElem?_eq_getElem hlt
  obtain ⟨idx, t1, t2⟩ := C112_table new bf scans c3 k _ (by omega) hs t m4
  obtain ⟨idx', u1, u2⟩ := C113_sums new bf scans c3 k _ (by omega) hs t m4
  have hidx : ∀ w ∈ quantities, idx' w = idx w := by
    intro w hw
    obtain ⟨⟨l, p1, p2⟩, p3⟩ := t1 w hw
    obtain ⟨⟨l', q1, q2⟩, q3⟩ := u1 w hw
    rcases lt_trichotomy (idx' w) (idx w) with hc | hc | hc
    · exact absurd q2 (p3 _ _ hc q1)
    · exact hc
    · exact absurd p2 (q3 _ _ hc p1)
  have hpair0 := table_pair new bf scans c3 k t m4
  obtain ⟨s1, s2, s3, s4, s5, s6, s7, s8, ⟨T, s9, s10, s11, s12, s13, s14⟩, _⟩ := Element.setAll_ok (congrArg Prod.fst m5)
  have hpl := Element.setAll_pair (congrArg Prod.fst m5)
  rw [m5] at s5 s9
  have hm : getCoefficientTable d i.symbol = .ok (coefficientTable e.data) := by
    unfold getCoefficientTable
    rw [e4]
    rfl
  refine ⟨scans[k - 1], _, idx, by omega, c2 _ _ (List.getElem?_eq_getElem hlt), hm, t1, fun hd j row hrow => ?_⟩
  obtain ⟨g1, _⟩ := t2 hd j row hrow
  obtain ⟨v1, v2⟩ := u2 (fun w hw w' hw' hne => by rw [hidx w hw, hidx w' hw']; exact hd w hw w' hw' hne) j row hrow
  have hj := (List.getElem?_eq_some_iff.1 hrow).1
  have hcol : ∀ w ∈ "energy" :: "coherent" :: "compton" :: innerShells,
      (Element.col t w).length = (scans[k - 1]).rows.length ∧ (Element.col t w).getD j 0 = row.getD (idx w) 0 := by
    intro w hw
    obtain ⟨c, p1, p2, p3⟩ := g1 w hw
    unfold Element.col
    rw [p1]
    refine ⟨p2, ?_⟩
    rw [List.getD_eq_getElem?_getD, Option.getD_some, p3, List.getD_eq_getElem?_getD]
  have hE := (hcol "energy" (by simp)).1
  rw [hE] at s1 s2 s3 s12 hpl
  have hphoto : (Element.col t "photoelectric").getD j 0 = colAt t "photoelectric".toList j := rfl
  have hT : e.data.mu = some T := e2.table.trans s9
  have hM : e.data.muEnergy = Element.col t "energy" := e2.energies.trans s5
  have hpairl : T.pair.length = (scans[k - 1]).rows.length := by
    rw [s12]
    split_ifs with hp
    · exact hpl hp
    · simp
  have hpairv : T.pair.getD j 0 = 0 := by
    rw [s12]
    split_ifs with hp
    · exact hpair0 j
    · rw [List.getD_eq_getElem?_getD, List.getElem?_replicate]
      split_ifs <;> rfl
  have htot : T.total.length = (scans[k - 1]).rows.length := by
    rw [s14]
    simp only [List.length_zipWith, s10, s11, s13, s1, s2, s3, hpairl, min_self]
  have hin : innerShells.map (fun w => row.getD (idx' w) 0) = innerShells.map (fun w => row.getD (idx w) 0) := by
    refine List.map_congr_left fun w hw => ?_
    have hq : ∀ w ∈ innerShells, w ∈ quantities := by decide +kernel
    rw [hidx w (hq w hw)]
  have hq4 : idx' "total" = idx "total" ∧ idx' "compton" = idx "compton" ∧ idx' "coherent" = idx "coherent" ∧
      idx' "all other" = idx "all other" :=
    ⟨hidx _ (by decide), hidx _ (by decide), hidx _ (by decide), hidx _ (by decide)⟩
  rw [hin, hq4.1, hq4.2.1, hq4.2.2.1, hq4.2.2.2] at v1
  have find : (coefficientTable e.data).find? "coherent".toList = some T.coherent ∧
      (coefficientTable e.data).find? "compton".toList = some T.compton ∧
      (coefficientTable e.data).find? "energy".toList = some (Element.col t "energy") ∧
      (coefficientTable e.data).find? "pair".toList = some T.pair ∧
      (coefficientTable e.data).find? "photoelectric".toList = some T.photoelectric ∧
      (coefficientTable e.data).find? "total".toList = some T.total := by
    unfold coefficientTable
    rw [hT, hM]
    refine ⟨?_, ?_, ?_, ?_, ?_, ?_⟩ <;> rfl
  obtain ⟨f1, f2, f3, f4, f5, f6⟩ := find
  refine ⟨?_, ?_, by rw [colAt_of f4, hpairv], ?_, ?_⟩
  · intro w hw
    simp only [List.mem_cons, List.not_mem_nil, or_false] at hw
    rcases hw with rfl | rfl | rfl | rfl | rfl | rfl
    · exact ⟨_, f3, hE⟩
    · exact ⟨_, f1, by rw [s10, s3]⟩
    · exact ⟨_, f2, by rw [s11, s2]⟩
    · exact ⟨_, f4, hpairl⟩
    · exact ⟨_, f5, by rw [s13, s1]⟩
    · exact ⟨_, f6, htot⟩
  · intro w hw
    simp only [List.mem_cons, List.not_mem_nil, or_false] at hw
    rcases hw with rfl | rfl | rfl
    · rw [colAt_of f3]; exact (hcol _ (by simp)).2
    · rw [colAt_of f1, s10]; exact (hcol _ (by simp)).2
    · rw [colAt_of f2, s11]; exact (hcol _ (by simp)).2
  · rw [colAt_of f5, s13, hphoto, v1]
  · rw [colAt_of f6, s14]
    have hz2 : ∀ (x y : List K), x.length = y.length → (List.zipWith (· + ·) x y).getD j 0 = x.getD j 0 + y.getD j 0 := by
      intro x y hxy
      rw [List.getD_eq_getElem?_getD, List.getD_eq_getElem?_getD, List.getD_eq_getElem?_getD, List.getElem?_zipWith]
      by_cases hx : j < x.length
      · rw [List.getElem?_eq_getElem hx, List.getElem?_eq_getElem (hxy ▸ hx)]
        rfl
      · rw [List.getElem?_eq_none (by omega), List.getElem?_eq_none (by omega)]
        simp
    rw [hz2, hz2, hz2, s10, s11, s13, hpairv, hphoto, v1, (hcol "coherent" (by simp)).2, (hcol "compton" (by simp)).2]
    · ring
    · rw [s11, s2, hpairl]
    · simp only [List.length_zipWith, s11, s13, s1, s2, hpairl, min_self]
    · simp only [List.length_zipWith, s10, s11, s13, s1, s2, s3, hpairl, min_self]

end Init
end Fisx
