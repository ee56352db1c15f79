import Verif.ConfigDoc
import Verif.BeamProps

/-!
# The beam of a configuration file (C165)

The section `[fit]` gives the energies, the weights, the scattering flags and the switches of the beam as four lists. What is written is
described by the rows of a table with four columns; a column can be left out.
-/

set_option linter.unusedSectionVars false

namespace Fisx
namespace Config

variable {K R : Type} [Field K] [LinearOrder K] [IsStrictOrderedRing K]

/-- One photon energy of the file. -/
structure Row (K : Type) where
  energy : K
  weight : K
  scatter : Int
  flag : Int

/-- The row is used: its switch is on and an energy was written. -/
def Row.On (r : Row K) : Prop := r.flag > 0 ∧ r.energy ≠ -666

instance (r : Row K) : Decidable r.On := by unfold Row.On; infer_instance

/-- The row makes no sense. -/
def Row.Bad (r : Row K) : Prop := r.energy ≤ 0 ∨ r.weight < 0

instance (r : Row K) : Decidable r.Bad := by unfold Row.Bad; infer_instance

/-- The list of a key of the section of the beam. -/
def column {V : Type} (conv : Str → Option V) (dflt : V) (value : Str → Option Str) (key : String) : List V :=
  Ini.multipleValues conv ',' dflt ((value key.toList).getD [])

/-- The lists of the section of the beam are the columns of a table. Weights, scattering flags and switches that are left out are 1. -/
structure Says (cv : Conv K) (value : Str → Option Str) (rows : List (Row K)) : Prop where
  energy : column cv.num (-666) value "energy" = rows.map Row.energy
  weight : column cv.num (-1) value "energyweight" = rows.map Row.weight ∨
    (column cv.num (-1) value "energyweight" = [] ∧ ∀ r ∈ rows, r.weight = 1)
  scatter : column cv.int (-1) value "energyscatter" = rows.map Row.scatter ∨
    (column cv.int (-1) value "energyscatter" = [] ∧ ∀ r ∈ rows, r.scatter = 1)
  flag : column cv.int 0 value "energyflag" = rows.map Row.flag ∨
    (column cv.int 0 value "energyflag" = [] ∧ ∀ r ∈ rows, r.flag = 1)

/-- The rays that the used rows stand for: their weights add up to 1 unless all are 0. -/
def rowRays (rows : List (Row K)) : List (Ray K) :=
  let W := (rows.map Row.weight).sum
  rows.map fun r => { energy := r.energy, weight := if 0 < W then r.weight / W else r.weight,
                      characteristic := max r.scatter 0, divergency := 0 }

/-! ## The loop -/

theorem vget_mid {α : Type} (l t : List α) (a : α) {n : Nat} (hn : l.length = n) : vget (l ++ a :: t) n = .ok a := by
  subst hn
  simp [vget]

theorem eraseAt_mid {α : Type} (l t : List α) (a : α) {n : Nat} (hn : l.length = n) : eraseAt (l ++ a :: t) n = .ok (l ++ t) := by
  subst hn
  simp [eraseAt, List.eraseIdx_append_of_length_le]

theorem beamLoop_rows (rows : List (Row K)) : ∀ (F S : List Int) (E W : List K),
    beamLoop (rows.map Row.flag ++ F) rows.length
      { energy := rows.map Row.energy ++ E, weight := rows.map Row.weight ++ W, scatter := rows.map Row.scatter ++ S } =
    if ∃ r ∈ rows, r.On ∧ r.Bad then .throw .invalidArgument
    else .ok { energy := (rows.filter (fun r => r.On)).map Row.energy ++ E,
               weight := (rows.filter (fun r => r.On)).map Row.weight ++ W,
               scatter := (rows.filter (fun r => r.On)).map (fun r => max r.scatter 0) ++ S } := by
  induction rows using List.reverseRecOn with
  | nil => intro F S E W; simp [beamLoop]
  | append_singleton rows r ih =>
    intro F S E W
    rw [List.length_append, List.length_singleton]
    unfold beamLoop
    have hF : vget ((rows ++ [r]).map Row.flag ++ F) rows.length = .ok r.flag := by
      simpa using vget_mid (rows.map Row.flag) F r.flag (by simp)
    have hE : vget ((rows ++ [r]).map Row.energy ++ E) rows.length = .ok r.energy := by
      simpa using vget_mid (rows.map Row.energy) E r.energy (by simp)
    have hW : vget ((rows ++ [r]).map Row.weight ++ W) rows.length = .ok r.weight := by
      simpa using vget_mid (rows.map Row.weight) W r.weight (by simp)
    have hS : vget ((rows ++ [r]).map Row.scatter ++ S) rows.length = .ok r.scatter := by
      simpa using vget_mid (rows.map Row.scatter) S r.scatter (by simp)
    have hE' : eraseAt ((rows ++ [r]).map Row.energy ++ E) rows.length = .ok (rows.map Row.energy ++ E) := by
      simpa using eraseAt_mid (rows.map Row.energy) E r.energy (by simp)
    have hW' : eraseAt ((rows ++ [r]).map Row.weight ++ W) rows.length = .ok (rows.map Row.weight ++ W) := by
      simpa using eraseAt_mid (rows.map Row.weight) W r.weight (by simp)
    have hS' : eraseAt ((rows ++ [r]).map Row.scatter ++ S) rows.length = .ok (rows.map Row.scatter ++ S) := by
      simpa using eraseAt_mid (rows.map Row.scatter) S r.scatter (by simp)
    have hx : ((∃ q ∈ rows ++ [r], q.On ∧ q.Bad) ↔ (∃ q ∈ rows, q.On ∧ q.Bad) ∨ (r.On ∧ r.Bad)) := by
      constructor
      · rintro ⟨q, hq, h⟩
        rw [List.mem_append, List.mem_singleton] at hq
        rcases hq with hq | rfl
        · exact Or.inl ⟨q, hq, h⟩
        · exact Or.inr h
      · rintro (⟨q, hq, h⟩ | h)
        · exact ⟨q, by simp [hq], h⟩
        · exact ⟨r, by simp, h⟩
    simp only [hF, hE, hW, hS, hE', hW', hS', Outcome.ok_bind, hx]
    have hcond : (do let e ← (if r.flag > 0 then (Outcome.ok r.energy) else .ok (-666)); (.ok e : Outcome K)) =
        .ok (if r.flag > 0 then r.energy else -666) := by split <;> rfl
    by_cases hon : r.On
    · obtain ⟨h1, h2⟩ := hon
      rw [if_pos h1]
      simp only [Outcome.ok_bind]
      rw [if_pos ⟨h1, h2⟩]
      by_cases he : r.energy ≤ 0
      · rw [if_pos he, if_pos (Or.inr ⟨⟨h1, h2⟩, Or.inl he⟩)]
      rw [if_neg he]
      by_cases hw : r.weight < 0
      · rw [if_pos hw, if_pos (Or.inr ⟨⟨h1, h2⟩, Or.inr hw⟩)]
      rw [if_neg hw]
      have hset : (if r.scatter < 0 then ((rows ++ [r]).map Row.scatter ++ S).set rows.length 0
          else (rows ++ [r]).map Row.scatter ++ S) = rows.map Row.scatter ++ (max r.scatter 0 :: S) := by
        split
        · rename_i hs
          rw [max_eq_right hs.le]
          have := List.set_append_right (s := rows.map Row.scatter) (t := r.scatter :: S) rows.length 0 (by simp)
          simpa using this
        · rename_i hs
          rw [max_eq_left (not_lt.1 hs)]
          simp
      rw [hset]
      have hres := ih (r.flag :: F) (max r.scatter 0 :: S) (r.energy :: E) (r.weight :: W)
      have hbad : ¬ (r.On ∧ r.Bad) := fun h => h.2.elim he hw
      simp only [hbad, or_false]
      have hfil : (rows ++ [r]).filter (fun r => r.On) = rows.filter (fun r => r.On) ++ [r] := by
        rw [List.filter_append, List.filter_cons_of_pos (by simpa using ⟨h1, h2⟩), List.filter_nil]
      simp only [hfil, List.map_append, List.map_cons, List.map_nil, List.append_assoc, List.cons_append, List.nil_append]
      exact hres
    · have hres := ih (r.flag :: F) S E W
      have hfil : (rows ++ [r]).filter (fun r => r.On) = rows.filter (fun r => r.On) := by
        rw [List.filter_append, List.filter_cons_of_neg (by simpa using hon), List.filter_nil, List.append_nil]
      have hbad : ¬ (r.On ∧ r.Bad) := fun h => hon h.1
      simp only [hbad, or_false, hfil]
      have hgo : ∀ e, e = (if r.flag > 0 then r.energy else -666) → ¬ (r.flag > 0 ∧ e ≠ -666) := by
        intro e he h
        rw [if_pos h.1] at he
        exact hon ⟨h.1, he ▸ h.2⟩
      have hsel : (if r.flag > 0 then Outcome.ok r.energy else .ok (-666)) =
          Outcome.ok (if r.flag > 0 then r.energy else -666) := by split <;> rfl
      rw [hsel]
      simp only [Outcome.ok_bind]
      rw [if_neg (hgo _ rfl)]
      simp only [← hres, List.map_append, List.map_cons, List.map_nil, List.append_assoc, List.cons_append, List.nil_append]

theorem ones {α V : Type} {l : List α} {v : List V} {f : α → V} {x : V} (h : v = l.map f ∨ (v = [] ∧ ∀ r ∈ l, f r = x)) :
    (if v.length = 0 then List.replicate l.length x else v) = l.map f := by
  rcases h with rfl | ⟨rfl, h⟩
  · split
    · rename_i h0
      simp only [List.length_map, List.length_eq_zero_iff] at h0
      subst h0
      rfl
    · rfl
  · simp only [List.length_nil, if_true]
    symm
    rw [List.eq_replicate_iff]
    refine ⟨by simp, ?_⟩
    intro b hb
    obtain ⟨r, hr, rfl⟩ := List.mem_map.1 hb
    exact h r hr

theorem beamLists_says {cv : Conv K} {fit : SMap Str Str} {rows : List (Row K)} (h : Says cv fit.find? rows) :
    beamLists cv fit =
    if ∃ r ∈ rows, r.On ∧ r.Bad then .throw .invalidArgument
    else .ok { energy := (rows.filter (fun r => r.On)).map Row.energy,
               weight := (rows.filter (fun r => r.On)).map Row.weight,
               scatter := (rows.filter (fun r => r.On)).map (fun r => max r.scatter 0) } := by
  have hE := h.energy
  have hW := ones h.weight
  have hS := ones h.scatter
  have hF := ones h.flag
  unfold column at hE hW hS hF
  unfold beamLists text
  dsimp only
  rw [hE, List.length_map, hW, hS, hF, List.length_map]
  simpa using beamLoop_rows rows [] [] [] []

/-- Nothing that is read after the beam changes the beam. -/
theorem read_beam (setArea : Detector K R → K → Outcome Unit × Detector K R) (sort : List (Ray K) → List (Ray K)) (cv : Conv K)
    (c : Config K R) (file : Option Str) {r : Ini.Reader} {fit : SMap Str Str} {b : BeamLists K} {nb : Beam K}
    (hr : Ini.read Ini.new file = (.ok (), r)) (hfit : (fitSection r).1 = .ok fit) (hb : beamLists cv fit = .ok b)
    (hset : Beam.setBeam sort c.beam b.energy b.weight b.scatter [] = (.ok (), nb)) :
    (read setArea sort cv c file).2.beam = nb := by
  unfold read
  rw [hr]
  dsimp only
  rw [hfit]
  simp only [orKeep, hb, hset]
  have hstart : andThen ((.ok () : Outcome Unit), ({ c with beam := nb } : Config K R)) = fun f => f { c with beam := nb } := rfl
  rw [hstart]
  dsimp only
  rcases andThen_cases _ _ with ⟨-, heq⟩ | ⟨-, heq⟩
  swap
  · rw [heq]
  rw [heq]
  clear heq
  rcases andThen_cases _ _ with ⟨-, heq⟩ | ⟨-, heq⟩
  swap
  · rw [heq]
  rw [heq]
  clear heq
  rcases andThen_cases _ _ with ⟨-, heq⟩ | ⟨-, heq⟩
  swap
  · rw [heq]
  rw [heq]
  clear heq
  dsimp only
  split
  · rename_i s hs
    have hbeam := (attLoop_keeps cv hs).2.1
    dsimp only at hbeam
    split <;> exact hbeam
  all_goals rfl

theorem fitSection_doc {d : Ini.Doc} (hd : d.WF) (hk : ∃ key, d.value "fit".toList key ≠ none) :
    ∃ r fit, Ini.read Ini.new (some d.text) = (.ok (), r) ∧ (fitSection r).1 = .ok fit ∧
      ∀ key, fit.find? key = d.value "fit".toList key := by
  obtain ⟨r, h1, h2⟩ := Ini.C37_exact_partial hd "fit".toList hk false
  refine ⟨r, (Ini.readSection r "fit".toList false).1, h1, ?_, h2⟩
  unfold fitSection
  dsimp only
  rw [if_pos]
  intro h0
  obtain ⟨key, hk⟩ := hk
  apply hk
  rw [← h2 key, List.length_eq_zero_iff.1 h0]
  rfl

theorem expected_map {α V : Type} (l : List α) (f : α → V) (x : V) (i : Nat) (hi : i < l.length) :
    Beam.expected (l.map f) x i = f l[i] := by
  match l, i, hi with
  | [a], 0, _ => rfl
  | a :: b :: t, i, hi =>
    show ((a :: b :: t).map f).getD i x = _
    rw [List.getD_eq_getElem?_getD, List.getElem?_map, List.getElem?_eq_getElem hi]
    rfl

theorem sum_range_rows (rows : List (Row K)) :
    ((List.range rows.length).map (Beam.expected (rows.map Row.weight) 1)).sum = (rows.map Row.weight).sum := by
  congr 1
  apply List.ext_getElem (by simp)
  intro i hi hi'
  simp only [List.length_map, List.length_range] at hi
  rw [List.getElem_map, List.getElem_range, expected_map _ _ _ _ hi, List.getElem_map]

/-- **C165** (missing: columns of different lengths, for which it is false) The section `[fit]` of a well formed file gives a table of energies, weights, scattering flags and switches (columns left
out are 1). A used row with a negative or zero energy or a negative weight makes the file refused and nothing is changed. Otherwise,
whatever the rest of the file says, the beam has exactly the used rows, in ascending order of energies, with their weights divided by the
sum. -/
theorem C165_beam_partial (setArea : Detector K R → K → Outcome Unit × Detector K R) (sort : List (Ray K) → List (Ray K))
    (hsort : Beam.IsSort sort) (cv : Conv K) (c : Config K R) (d : Ini.Doc) (hd : d.WF)
    (hk : ∃ key, d.value "fit".toList key ≠ none) (rows : List (Row K)) (hs : Says cv (d.value "fit".toList) rows) :
    ((∃ r ∈ rows, r.On ∧ r.Bad) → read setArea sort cv c (some d.text) = (.throw .invalidArgument, c)) ∧
    ((∀ r ∈ rows, r.On → 0 < r.energy ∧ 0 ≤ r.weight) →
      (read setArea sort cv c (some d.text)).2.beam.rays.Perm (rowRays (rows.filter (fun r => r.On))) ∧
      (read setArea sort cv c (some d.text)).2.beam.rays.Pairwise (fun r s => r.energy ≤ s.energy)) := by
  obtain ⟨r, fit, hr, hfit, hv⟩ := fitSection_doc hd hk
  have hf : fit.find? = d.value "fit".toList := funext hv
  rw [← hf] at hs
  have hlists := beamLists_says hs
  constructor
  · intro hbad
    rw [if_pos hbad] at hlists
    unfold read
    rw [hr]
    dsimp only
    rw [hfit]
    simp only [orKeep, hlists]
  · intro hgood
    have hnb : ¬ ∃ r ∈ rows, r.On ∧ r.Bad := by
      rintro ⟨r, h1, h2, h3⟩
      have := hgood r h1 h2
      exact h3.elim (fun h => absurd this.1 (not_lt.2 h)) (fun h => absurd this.2 (not_le.2 h))
    rw [if_neg hnb] at hlists
    generalize rows.filter (fun r => r.On) = on at hlists ⊢
    obtain ⟨h1, h2, h3, -⟩ := Beam.C06_setBeam sort hsort c.beam (on.map Row.energy) (on.map Row.weight)
      (on.map (fun r => max r.scatter 0)) [] (Or.inr (by simp)) (Or.inr (by simp)) (Or.inl (by simp))
    have := read_beam setArea sort cv c (some d.text) hr hfit hlists (Prod.ext h1 rfl)
    rw [this]
    refine ⟨?_, h2⟩
    refine h3.trans (List.Perm.of_eq ?_)
    rw [List.length_map, sum_range_rows]
    unfold rowRays
    apply List.ext_getElem (by simp)
    intro i hi hi'
    simp only [List.length_map, List.length_range] at hi
    rw [List.getElem_map, List.getElem_map, List.getElem_range, expected_map _ _ _ _ hi, expected_map _ _ _ _ hi]
    simp [Beam.expected, hi]

/-- **C165** is false for tables with columns of different lengths: the program reads behind the end of the shorter ones, and a switch that
is left out at the end lets through energies that are refused otherwise. -/
theorem C165_columns_violated :
    (readText "[fit]\nenergy=10\nenergyflag=1,1\n").1 = .ub .outOfBounds ∧
    (readText "[fit]\nenergy=10,20\nenergyweight=1\n").1 = .ub .outOfBounds ∧
    (readText "[fit]\nenergy=10,0\nenergyflag=1\n[attenuators]\nx=0\n").1 = .ok () ∧
    (readText "[fit]\nenergy=10,0\nenergyflag=1\n[attenuators]\nx=0\n").2.beam.rays.map Ray.energy = [10, 0] ∧
    (readText "[fit]\nenergy=10,0\n[attenuators]\nx=0\n").1 = .throw .invalidArgument := by decide +kernel

/-! ### An example -/

/-- A file with three energies, the second switched off, without scattering flags. -/
def beamDoc : Ini.Doc :=
  { sections :=
      [bareSection "fit" [bareEntry "energy" "10,20,30", bareEntry "energyweight" "1,5,3", bareEntry "energyflag" "1,0,1"],
       bareSection "attenuators" [bareEntry "x" "0"]]
    tail := [] }

theorem beamDoc_wf : beamDoc.WF := by
  have hs : ∀ n es, n ≠ "" → (n.toList.all (fun c => c ≠ '[' ∧ c ≠ ']' ∧ c ≠ '\n') = true) →
      (∀ e ∈ es, Ini.Entry.WF e) → (bareSection n es).WF := by
    intro n es h1 h2 h3
    refine ⟨bare_wf, by simpa [bareSection] using h1, ?_, by simp [bareSection], by simp [bareSection, Ini.noTrail], h3⟩
    intro c hc
    simpa using List.all_eq_true.1 h2 c hc
  refine ⟨?_, by simp [beamDoc]⟩
  intro s hm
  simp only [beamDoc, List.mem_cons, List.not_mem_nil, or_false] at hm
  rcases hm with rfl | rfl
  all_goals
    refine hs _ _ (by decide) (by decide) ?_
    intro e he
    simp only [List.mem_cons, List.not_mem_nil, or_false] at he
  · rcases he with rfl | rfl | rfl
    all_goals exact bareEntry_wf _ _ (by decide) (by decide) (by decide) (by decide) (by decide) (by decide)
  · subst he
    exact bareEntry_wf _ _ (by decide) (by decide) (by decide) (by decide) (by decide) (by decide)

/-- The rows of the file. -/
def beamRows : List (Row ℚ) := [⟨10, 1, 1, 1⟩, ⟨20, 5, 1, 0⟩, ⟨30, 3, 1, 1⟩]

/-- The hypotheses of `C165_beam_partial` are met, and the beam of the file has two energies with weights 1/4 and 3/4. -/
example : beamDoc.WF ∧ beamDoc.value "fit".toList "energy".toList ≠ none ∧
    Says toyConv (beamDoc.value "fit".toList) beamRows ∧ (∀ r ∈ beamRows, r.On → 0 < r.energy ∧ 0 ≤ r.weight) ∧
    rowRays (beamRows.filter (fun r => r.On)) = [⟨10, 1 / 4, 1, 0⟩, ⟨30, 3 / 4, 1, 0⟩] := by
  refine ⟨beamDoc_wf, by decide +kernel, ⟨by decide +kernel, Or.inl (by decide +kernel), Or.inr ⟨by decide +kernel, ?_⟩,
    Or.inl (by decide +kernel)⟩, ?_, by decide +kernel⟩
  · intro r hr
    fin_cases hr <;> rfl
  · intro r hr _
    fin_cases hr <;> norm_num

end Config
end Fisx
