import Verif.ElementProps
import Verif.EPDL97Props
import Verif.LibraryProps

/-!
# The overloads taking several energies

`Element`, `EPDL97` and `Elements` offer the same queries for one energy and for a vector of energies. This file
models the latter ones and shows that they return the results of the former ones, energy by energy.
It also holds the sum rules of the coefficients of an element (C74).
-/

set_option linter.unusedSectionVars false

namespace Fisx

/-! ## Model -/

section model

variable {K : Type} [Field K] [LinearOrder K]

/-- `result[key].resize(n)` for all the keys (fisx_element.cpp:481-484, fisx_epdl97.cpp:600-603, 755-758). -/
def resizeAll (n : Nat) (ks : List Str) (acc : SMap Str (List K)) : SMap Str (List K) :=
  match ks with
  | [] => acc
  | k :: rest => resizeAll n rest (acc.insert k ((((acc.find? k).getD []) ++ List.replicate n 0).take n))

/-- `result[key][i] = value` for all the entries of one result (fisx_element.cpp:486-489, fisx_epdl97.cpp:605-608,
760-763). -/
def writeAll (i : Nat) (t : List (Str × K)) (acc : SMap Str (List K)) : Outcome (SMap Str (List K)) :=
  match t with
  | [] => .ok acc
  | (k, v) :: rest =>
    if i < ((acc.find? k).getD []).length then writeAll i rest (acc.insert k (((acc.find? k).getD []).set i v))
    else .ub .outOfBounds

/-- The loop over the energies shared by fisx_element.cpp:476-490, fisx_epdl97.cpp:595-610 and 750-765. `f` is the call
for one energy; it may have a state (the last index found, kept by EPDL97). -/
def gatherLoop {σ : Type} (f : σ → K → Outcome (SMap Str K × σ)) (n : Nat) (xs : List K) (i : Nat) (s : σ)
    (acc : SMap Str (List K)) : Outcome (SMap Str (List K) × σ) :=
  match xs with
  | [] => .ok (acc, s)
  | x :: rest => do
    let r ← f s x
    let acc := if i = 0 then resizeAll n r.1.keys acc else acc
    let acc ← writeAll i r.1 acc
    gatherLoop f n rest (i + 1) r.2 acc

/-- The whole call: `length = energy.size()` and an empty result. -/
def gather {σ : Type} (f : σ → K → Outcome (SMap Str K × σ)) (s : σ) (xs : List K) :
    Outcome (SMap Str (List K) × σ) := gatherLoop f xs.length xs 0 s []

namespace Element

/-- The keys of the map returned by fisx_element.cpp:327-464, in the order of the map. -/
def muKeys : List Str :=
  photoShells ++ ["coherent".toList, "compton".toList, "energy".toList, "pair".toList, "photoelectric".toList,
    "total".toList]

/-- fisx_element.cpp:327-464: the map behind the structure `Mu` (absent partial coefficients are created with the value
0 by the reads of L448-450). -/
def muMap (m : Mu K) : SMap Str K :=
  photoShells.map (fun s => (s, at0 m.partials s)) ++
  [("coherent".toList, m.coherent), ("compton".toList, m.compton), ("energy".toList, m.energy),
   ("pair".toList, m.pair), ("photoelectric".toList, m.photoelectric), ("total".toList, m.total)]

variable [Trans K]

/-- fisx_element.cpp:466-492, `getMassAttenuationCoefficients(energies)`. -/
def getMus (e : Element K) (xs : List K) : Outcome (SMap Str (List K)) := do
  let r ← gather (fun (_ : Unit) x => do let m ← e.getMu x; return (muMap m, ())) () xs
  return r.1

/-- fisx_element.cpp:921-936: the ratios of one shell. -/
def vacancyColumn (photo shell : List K) (n j : Nat) : Outcome (List K) :=
  match n with
  | 0 => .ok []
  | n + 1 => do
    let total ← vget photo j
    if total > 0 then do
      let v ← vget shell j
      let r ← vacancyColumn photo shell n (j + 1)
      return (v / total) :: r
    else do
      let r ← vacancyColumn photo shell n (j + 1)
      return 0 :: r

/-- fisx_element.cpp:919-937, the loop over the shells. -/
def vacancyColumns (t : SMap Str (List K)) (ks : List Str) (acc : SMap Str (List K)) :
    Outcome (SMap Str (List K)) :=
  match ks with
  | [] => .ok acc
  | k :: rest => do
    let c ← vacancyColumn ((t.find? "photoelectric".toList).getD []) ((t.find? k).getD [])
      ((t.find? "total".toList).getD []).length 0
    vacancyColumns t rest (acc.insert k c)

/-- fisx_element.cpp:908-937, `getInitialPhotoelectricVacancyDistribution(energies)`. -/
def getInitialVacanciesList (e : Element K) (xs : List K) : Outcome (SMap Str (List K)) := do
  let t ← e.getMus xs
  vacancyColumns t photoShells []

/-- fisx_element.cpp:1515-1522: the loop over the energies; `w` is the value of `weight` before it. -/
def factorsLoop (e : Element K) (weights : List K) (w : K) (i : Nat) (xs : List K) :
    Outcome (List (SMap Str (Factor K))) :=
  match xs with
  | [] => .ok []
  | x :: rest => do
    let w ← if weights.length > 1 then vget weights i else .ok w
    let r ← e.getFactors x w
    let rs ← factorsLoop e weights w (i + 1) rest
    return r :: rs

/-- fisx_element.cpp:1497-1524, `getPhotoelectricExcitationFactors(energies, weights)`. -/
def getFactorsList (e : Element K) (xs weights : List K) : Outcome (List (SMap Str (Factor K))) :=
  if xs.length = 0 then .ok []
  else do
    let w ← if weights.length = 1 then vget weights 0 else .ok (1 / (xs.length : K))
    factorsLoop e weights w 0 xs

omit [Trans K] in
/-- fisx_element.cpp:188-194: the map of the labels and energies. -/
def labelLoop (labels : List Str) (values : List K) (acc : SMap Str K) : SMap Str K :=
  match labels, values with
  | l :: ls, v :: vs => labelLoop ls vs (acc.insert l v)
  | _, _ => acc

omit [Trans K] in
/-- fisx_element.cpp:179-196, `setBindingEnergies(labels, energies)`. -/
def setBindingEnergiesList (e : Element K) (labels : List Str) (values : List K) : Outcome Unit × Element K :=
  if labels.length ≠ values.length then (.throw .invalidArgument, e)
  else e.setBindingEnergies (labelLoop labels values [])

end Element

namespace EPDL97

variable [Trans K]

/-- fisx_epdl97.cpp:585-612, `getMassAttenuationCoefficients(z, energies)`. -/
def getMus (e : EPDL97 K) (z : Int) (xs : List K) (last : Nat) : Outcome (SMap Str (List K) × Nat) :=
  gather (fun last x => e.getMu z x last) last xs

/-- fisx_epdl97.cpp:740-767, `getPhotoelectricWeights(z, energies)`: the ten weights (as in `getWeights`, the
"mu ..." copies of the coefficients are left out). -/
def getWeightsList (e : EPDL97 K) (z : Int) (xs : List K) (last : Nat) : Outcome (SMap Str (List K) × Nat) :=
  gather (fun last x => e.getWeights z x last) last xs

end EPDL97

namespace Library

variable [Trans K]

/-- fisx_elements.cpp:1022-1047, `getMassAttenuationCoefficients(name, energies)`, energy by energy. -/
def nameMus (pf : String → Outcome (SMap String K)) (L : Library K) (fuel : Nat) (name : String) (xs : List K) :
    Outcome (List (Mix K)) :=
  if L.dict.mem name then do
    let e ← L.getElement name
    let t ← e.data.getMus xs
    let col (k : String) : List K := (t.find? k.toList).getD []
    return (List.range xs.length).map (fun i => {
      energy := (col "energy").getD i 0, coherent := (col "coherent").getD i 0, compton := (col "compton").getD i 0,
      pair := (col "pair").getD i 0, photoelectric := (col "photoelectric").getD i 0, total := (col "total").getD i 0 })
  else do
    let c ← comp pf L fuel name
    if c.length < 1 then .throw .invalidArgument else mixMus pf L fuel c xs false

/-- fisx_elements.cpp:1550-1560, `getExcitationFactors(element, energies, weights)`. -/
def getExcitationFactorsList (L : Library K) (n : String) (xs weights : List K) :
    Outcome (List (SMap Str (Factor K))) := do
  let e ← L.getElement n
  e.data.getFactorsList xs weights

/-- fisx_elements.cpp:1562-1573, `getExcitationFactors(element, energy, weight)`. -/
def getExcitationFactors (L : Library K) (n : String) (x w : K) : Outcome (SMap Str (Factor K)) := do
  let r ← L.getExcitationFactorsList n [x] [w]
  vget r 0

/-- fisx_elements.cpp:1584-1590. -/
def getInitialVacancies (L : Library K) (n : String) (x : K) : Outcome (SMap Str K) := do
  let e ← L.getElement n
  e.data.getInitialVacancies x

/-- fisx_elements.cpp:1575-1581. -/
def getInitialVacanciesList (L : Library K) (n : String) (xs : List K) : Outcome (SMap Str (List K)) := do
  let e ← L.getElement n
  e.data.getInitialVacanciesList xs

end Library

end model

/-! ## Specification: calls one after the other -/

/-- The results of the calls for each of the energies, in order; the first exception wins. -/
def oneByOne {K σ α : Type} (f : σ → K → Outcome (α × σ)) (s : σ) (xs : List K) : Outcome (List α × σ) :=
  match xs with
  | [] => .ok ([], s)
  | x :: rest => do
    let r ← f s x
    let rs ← oneByOne f r.2 rest
    return (r.1 :: rs.1, rs.2)

/-- The same for calls without state. -/
def each {K α : Type} (f : K → Outcome α) (xs : List K) : Outcome (List α) :=
  match xs with
  | [] => .ok []
  | x :: rest => do
    let r ← f x
    let rs ← each f rest
    return r :: rs

/-! ## C75 -/

section collect

variable {K : Type} [Field K] [LinearOrder K] [IsStrictOrderedRing K]

theorem insert_map_keys {ks : List Str} (hs : ks.Pairwise (· < ·)) (g : Str → List K) {k : Str} (hk : k ∈ ks)
    (v : List K) :
    SMap.insert (ks.map (fun s => (s, g s))) k v = ks.map (fun s => (s, if s = k then v else g s)) := by
  have hsort : ∀ h : Str → List K, SMap.Sorted (ks.map (fun s => (s, h s))) := by
    intro h
    unfold SMap.Sorted
    rw [List.pairwise_map]
    exact hs
  have hfind : ∀ (h : Str → List K) (l : List Str) (q : Str),
      SMap.find? (l.map (fun s => (s, h s))) q = if q ∈ l then some (h q) else none := by
    intro h l q
    induction l with
    | nil => simp
    | cons a r ih =>
      simp only [List.map_cons, SMap.find?_cons, List.mem_cons]
      by_cases ha : a = q
      · subst ha; simp
      · rw [if_neg ha, ih]
        have : q ≠ a := fun h => ha h.symm
        simp [this]
  apply SMap.ext_find? (SMap.insert_sorted (hsort g) k v) (hsort (fun s => if s = k then v else g s))
  intro q
  rw [SMap.find?_insert, hfind g, hfind (fun s => if s = k then v else g s)]
  by_cases hq : k = q
  · subst hq; simp [hk]
  · have : q ≠ k := fun h => hq h.symm
    simp [hq, this]

theorem find?_map_keys (h : Str → List K) (l : List Str) (q : Str) (hq : q ∈ l) :
    SMap.find? (l.map (fun s => (s, h s))) q = some (h q) := by
  induction l with
  | nil => simp at hq
  | cons a r ih =>
    simp only [List.map_cons, SMap.find?_cons]
    by_cases ha : a = q
    · subst ha; simp
    · rw [if_neg ha]
      refine ih ?_
      rcases List.mem_cons.1 hq with h | h
      · exact absurd h.symm ha
      · exact h

theorem writeAll_map {ks : List Str} (hs : ks.Pairwise (· < ·)) (i : Nat) : ∀ (t : List (Str × K)) (g : Str → List K),
    (∀ p ∈ t, p.1 ∈ ks) → (t.map Prod.fst).Nodup → (∀ s, i < (g s).length) →
    writeAll i t (ks.map (fun s => (s, g s)))
      = .ok (ks.map (fun s => (s, match SMap.find? t s with | some v => (g s).set i v | none => g s))) := by
  intro t
  induction t with
  | nil => intro g _ _ _; simp [writeAll]
  | cons p r ih =>
    obtain ⟨k, v⟩ := p
    intro g hk hnd hlen
    have hkk : k ∈ ks := hk (k, v) (by simp)
    unfold writeAll
    rw [find?_map_keys g ks k hkk]
    simp only [Option.getD_some, hlen k, if_true]
    rw [insert_map_keys hs g hkk]
    simp only [List.map_cons, List.nodup_cons] at hnd
    rw [ih (fun s => if s = k then (g k).set i v else g s) (fun p hp => hk p (List.mem_cons_of_mem _ hp)) hnd.2 (by
      intro s
      split
      · rw [List.length_set]; exact hlen k
      · exact hlen s)]
    congr 1
    apply List.map_congr_left
    intro s _
    simp only [SMap.find?_cons, Prod.mk.injEq, true_and]
    by_cases hsk : s = k
    · subst hsk
      have hnone : SMap.find? r s = none := by
        rw [SMap.find?_eq_none_iff]
        intro e he heq
        exact hnd.1 (heq ▸ List.mem_map_of_mem he)
      simp [hnone]
    · have : k ≠ s := fun h => hsk h.symm
      simp only [if_neg this, if_neg hsk]

theorem resizeAll_map (n : Nat) : ∀ (ks : List Str) (m : SMap Str (List K)), m.Sorted →
    (∀ k ∈ ks, m.find? k = none) → ks.Nodup →
    (resizeAll n ks m).Sorted ∧ ∀ q, (resizeAll n ks m).find? q = if q ∈ ks then some (List.replicate n 0) else m.find? q := by
  intro ks
  induction ks with
  | nil => intro m hm _ _; exact ⟨hm, by intro q; simp [resizeAll]⟩
  | cons k r ih =>
    intro m hm hnone hnd
    rw [List.nodup_cons] at hnd
    unfold resizeAll
    rw [hnone k (by simp)]
    simp only [Option.getD_none, List.nil_append, List.take_replicate, min_self]
    obtain ⟨h1, h2⟩ := ih (m.insert k (List.replicate n 0)) (SMap.insert_sorted hm _ _) (by
      intro q hq
      rw [SMap.find?_insert, if_neg (by rintro rfl; exact hnd.1 hq)]
      exact hnone q (List.mem_cons_of_mem _ hq)) hnd.2
    refine ⟨h1, ?_⟩
    intro q
    rw [h2, SMap.find?_insert]
    by_cases hq : q ∈ r
    · simp [hq]
    · simp only [hq, if_false, List.mem_cons, or_false]
      by_cases hk : k = q
      · subst hk; simp
      · have : q ≠ k := fun h => hk h.symm
        simp [hk, this]

/-- The lists of values, by key. -/
def columnsOf (ks : List Str) (ms : List (SMap Str K)) : SMap Str (List K) :=
  ks.map (fun k => (k, ms.map (fun m => Element.at0 m k)))

theorem gatherLoop_eq {σ : Type} {f : σ → K → Outcome (SMap Str K × σ)} {ks : List Str} (hks : ks.Pairwise (· < ·))
    (hf : ∀ s x r, f s x = .ok r → r.1.keys = ks) (n : Nat) : ∀ (xs : List K) (s : σ) (done : List (SMap Str K)),
    done ≠ [] → n = done.length + xs.length →
    gatherLoop f n xs done.length s (ks.map (fun k => (k, done.map (fun m => Element.at0 m k) ++ List.replicate xs.length 0)))
      = (oneByOne f s xs).bind (fun r => .ok (columnsOf ks (done ++ r.1), r.2)) := by
  intro xs
  induction xs with
  | nil =>
    intro s done _ _
    simp [gatherLoop, oneByOne, Outcome.bind, columnsOf]
  | cons x rest ih =>
    intro s done hd hn
    unfold gatherLoop oneByOne
    cases hfx : f s x with
    | ok r =>
      have hkeys := hf s x r hfx
      have hlen : done.length ≠ 0 := by
        intro h; exact hd (List.length_eq_zero_iff.1 h)
      simp only [Outcome.ok_bind, hlen, if_false]
      have hnd : (r.1.map Prod.fst).Nodup := by
        have h := hks.imp (fun h => ne_of_lt h)
        have e : r.1.map Prod.fst = ks := hkeys
        rw [e]; exact h
      rw [writeAll_map hks done.length r.1 _ (by
        intro p hp
        have : p.1 ∈ r.1.map Prod.fst := List.mem_map_of_mem hp
        have e : r.1.map Prod.fst = ks := hkeys
        rwa [e] at this) hnd (by intro s; simp)]
      simp only [Outcome.ok_bind]
      have := ih r.2 (done ++ [r.1]) (by simp) (by simp at hn ⊢; omega)
      have harg : (ks.map (fun s => (s, match SMap.find? r.1 s with
            | some v => (done.map (fun m => Element.at0 m s) ++ List.replicate (x :: rest).length (0 : K)).set done.length v
            | none => done.map (fun m => Element.at0 m s) ++ List.replicate (x :: rest).length 0)))
          = ks.map (fun k => (k, (done ++ [r.1]).map (fun m => Element.at0 m k) ++ List.replicate rest.length 0)) := by
        apply List.map_congr_left
        intro k hk
        have hmem : k ∈ r.1.map Prod.fst := by
          have e : r.1.map Prod.fst = ks := hkeys
          rw [e]; exact hk
        have hsome : ∃ v, SMap.find? r.1 k = some v := by
          cases hc : SMap.find? r.1 k with
          | some v => exact ⟨v, rfl⟩
          | none =>
            rw [SMap.find?_eq_none_iff] at hc
            obtain ⟨p, hp, rfl⟩ := List.mem_map.1 hmem
            exact absurd rfl (hc p hp)
        obtain ⟨v, hv⟩ := hsome
        simp [hv, Element.at0, List.replicate_succ, List.set_append_right]
      rw [harg]
      rw [show (done ++ [r.1]).length = done.length + 1 by simp] at this
      rw [this]
      cases oneByOne f r.2 rest with
      | ok rs => simp [Outcome.bind]
      | throw e => rfl
      | ub u => rfl
      | diverge => rfl
    | throw e => rfl
    | ub u => rfl
    | diverge => rfl

/-- The call for several energies is the calls one by one, arranged by key. -/
theorem gather_eq {σ : Type} {f : σ → K → Outcome (SMap Str K × σ)} {ks : List Str} (hks : ks.Pairwise (· < ·))
    (hf : ∀ s x r, f s x = .ok r → r.1.keys = ks) (s : σ) (xs : List K) :
    gather f s xs = (oneByOne f s xs).bind (fun r => .ok (if xs = [] then [] else columnsOf ks r.1, r.2)) := by
  unfold gather
  cases xs with
  | nil => simp [gatherLoop, oneByOne, Outcome.bind]
  | cons x rest =>
    unfold gatherLoop oneByOne
    cases hfx : f s x with
    | ok r =>
      have hkeys := hf s x r hfx
      have e : r.1.map Prod.fst = ks := hkeys
      simp only [Outcome.ok_bind, if_true]
      have hnd : ks.Nodup := hks.imp (fun h => ne_of_lt h)
      have hrs : resizeAll (x :: rest).length r.1.keys ([] : SMap Str (List K))
          = ks.map (fun k => (k, List.replicate (x :: rest).length (0 : K))) := by
        rw [hkeys]
        obtain ⟨h1, h2⟩ := resizeAll_map (K := K) (x :: rest).length ks [] SMap.sorted_nil (by simp) hnd
        apply SMap.ext_find? h1
        · unfold SMap.Sorted
          rw [List.pairwise_map]
          exact hks
        · intro q
          rw [h2]
          by_cases hq : q ∈ ks
          · rw [if_pos hq, find?_map_keys (fun _ => List.replicate (x :: rest).length (0 : K)) ks q hq]
          · rw [if_neg hq]
            symm
            rw [SMap.find?_nil, SMap.find?_eq_none_iff]
            intro p hp
            obtain ⟨k, hk, rfl⟩ := List.mem_map.1 hp
            intro h
            exact hq (h ▸ hk)
      rw [hrs]
      rw [writeAll_map hks 0 r.1 (fun _ => List.replicate (x :: rest).length (0 : K)) (by
        intro p hp
        rw [← e]; exact List.mem_map_of_mem hp) (by rw [e]; exact hnd) (by intro s; simp)]
      simp only [Outcome.ok_bind]
      have harg : (ks.map (fun s => (s, match SMap.find? r.1 s with
            | some v => (List.replicate (x :: rest).length (0 : K)).set 0 v
            | none => List.replicate (x :: rest).length 0)))
          = ks.map (fun k => (k, [r.1].map (fun m => Element.at0 m k) ++ List.replicate rest.length 0)) := by
        apply List.map_congr_left
        intro k hk
        have hmem : k ∈ r.1.map Prod.fst := by rw [e]; exact hk
        have hsome : ∃ v, SMap.find? r.1 k = some v := by
          cases hc : SMap.find? r.1 k with
          | some v => exact ⟨v, rfl⟩
          | none =>
            rw [SMap.find?_eq_none_iff] at hc
            obtain ⟨p, hp, rfl⟩ := List.mem_map.1 hmem
            exact absurd rfl (hc p hp)
        obtain ⟨v, hv⟩ := hsome
        simp [hv, Element.at0, List.replicate_succ]
      rw [harg]
      have := gatherLoop_eq hks hf (x :: rest).length rest r.2 [r.1] (by simp) (by simp; omega)
      simp only [List.length_singleton] at this
      simp only [Nat.zero_add]
      rw [this]
      cases oneByOne f r.2 rest with
      | ok rs => simp [Outcome.bind]
      | throw e => rfl
      | ub u => rfl
      | diverge => rfl
    | throw e => rfl
    | ub u => rfl
    | diverge => rfl

theorem oneByOne_unit {α : Type} (f : K → Outcome α) (xs : List K) :
    oneByOne (fun (_ : Unit) x => do let m ← f x; return (m, ())) () xs
      = (each f xs).bind (fun l => .ok (l, ())) := by
  induction xs with
  | nil => rfl
  | cons x r ih =>
    unfold oneByOne each
    cases hf : f x with
    | ok a =>
      simp only [Outcome.ok_bind, Outcome.pure_eq]
      simp only [Outcome.pure_eq] at ih
      rw [ih]
      cases each f r <;> rfl
    | throw e => rfl
    | ub u => rfl
    | diverge => rfl

end collect

/-! ### Elements -/

namespace Element

variable {K : Type} [Field K] [LinearOrder K] [IsStrictOrderedRing K] [Trans K]

theorem muKeys_sorted : muKeys.Pairwise (· < ·) := by decide +kernel

theorem muMap_keys (m : Mu K) : (muMap m).keys = muKeys := by
  simp only [muMap, SMap.keys, muKeys, List.map_append, List.map_map, List.map_cons, List.map_nil]
  congr 1

/-- The entries of the map returned for one energy. -/
theorem muMap_entries (m : Mu K) :
    (∀ s ∈ photoShells, at0 (muMap m) s = at0 m.partials s) ∧ at0 (muMap m) "coherent".toList = m.coherent ∧
    at0 (muMap m) "compton".toList = m.compton ∧ at0 (muMap m) "energy".toList = m.energy ∧
    at0 (muMap m) "pair".toList = m.pair ∧ at0 (muMap m) "photoelectric".toList = m.photoelectric ∧
    at0 (muMap m) "total".toList = m.total := by
  have hs : (muMap m).Sorted := by
    have := muKeys_sorted
    rw [← muMap_keys m] at this
    unfold SMap.Sorted
    simpa only [SMap.keys, List.pairwise_map] using this
  have key : ∀ k v, (k, v) ∈ muMap m → at0 (muMap m) k = v := by
    intro k v h
    unfold at0
    rw [SMap.find?_of_mem hs h]; rfl
  refine ⟨fun s h => key _ _ (List.mem_append_left _ (List.mem_map.2 ⟨s, h, rfl⟩)),
    key _ _ (List.mem_append_right _ ?_), key _ _ (List.mem_append_right _ ?_), key _ _ (List.mem_append_right _ ?_),
    key _ _ (List.mem_append_right _ ?_), key _ _ (List.mem_append_right _ ?_), key _ _ (List.mem_append_right _ ?_)⟩
  all_goals simp only [List.mem_cons, true_or, or_true]

/-- **C75** getMassAttenuationCoefficients for several energies does what the calls for each of the energies do, one
after the other, and returns their values under the same keys in the order of the energies. -/
theorem C75_element_coefficients (e : Element K) (xs : List K) :
    e.getMus xs = (each e.getMu xs).bind (fun ms =>
      .ok (if xs = [] then [] else columnsOf muKeys (ms.map muMap))) := by
  have hf : ∀ (s : Unit) (x : K) (r : SMap Str K × Unit),
      (do let m ← e.getMu x; return (muMap m, ()) : Outcome (SMap Str K × Unit)) = .ok r → r.1.keys = muKeys := by
    intro s x r h
    obtain ⟨m, _, h⟩ := Outcome.bind_eq_ok.1 h
    cases h
    exact muMap_keys m
  unfold getMus
  rw [gather_eq muKeys_sorted hf]
  have := oneByOne_unit (fun x => do let m ← e.getMu x; return muMap m) xs
  have h2 : ∀ xs : List K, each (fun x => do let m ← e.getMu x; return muMap m) xs
      = (each e.getMu xs).bind (fun ms => .ok (ms.map muMap)) := by
    intro xs
    induction xs with
    | nil => rfl
    | cons x r ih =>
      unfold each
      rw [ih]
      cases e.getMu x with
      | ok m => cases each e.getMu r <;> rfl
      | throw _ => rfl
      | ub _ => rfl
      | diverge => rfl
  rw [h2] at this
  have e1 : (fun (_ : Unit) (x : K) => (do let m ← (do let m ← e.getMu x; return muMap m : Outcome (SMap Str K)); return (m, ()) : Outcome (SMap Str K × Unit)))
      = (fun (_ : Unit) (x : K) => (do let m ← e.getMu x; return (muMap m, ()) : Outcome (SMap Str K × Unit))) := by
    funext _ x
    cases e.getMu x <;> rfl
  rw [e1] at this
  rw [this]
  cases each e.getMu xs <;> rfl

theorem each_length {α β : Type} {f : α → Outcome β} : ∀ {xs : List α} {l : List β}, each f xs = .ok l →
    l.length = xs.length := by
  intro xs
  induction xs with
  | nil => intro l h; cases h; rfl
  | cons x r ih =>
    intro l h
    unfold each at h
    obtain ⟨a, _, h⟩ := Outcome.bind_eq_ok.1 h
    obtain ⟨b, hb, h⟩ := Outcome.bind_eq_ok.1 h
    cases h
    simp [ih hb]

theorem vacancyColumn_eq (l : List (Mu K)) (k : Str) : ∀ (rest done : List (Mu K)), l = done ++ rest →
    vacancyColumn (l.map Mu.photoelectric) (l.map (fun m => at0 m.partials k)) rest.length done.length
      = .ok (rest.map (fun m => if m.photoelectric > 0 then at0 m.partials k / m.photoelectric else 0)) := by
  intro rest
  induction rest with
  | nil => intro done _; rfl
  | cons m r ih =>
    intro done h
    have hg : l[done.length]? = some m := by rw [h]; simp
    have ih' := ih (done ++ [m]) (by rw [h]; simp)
    rw [show (done ++ [m]).length = done.length + 1 by simp] at ih'
    simp only [List.length_cons, vacancyColumn, vget, List.getElem?_map, hg, Option.map_some, Outcome.ok_bind, ih',
      Outcome.pure_eq, List.map_cons]
    split <;> rfl

theorem vacancyColumns_eq (t : SMap Str (List K)) (c : Str → List K) : ∀ (ks : List Str) (acc : SMap Str (List K)),
    (∀ k ∈ ks, vacancyColumn ((t.find? "photoelectric".toList).getD []) ((t.find? k).getD [])
      ((t.find? "total".toList).getD []).length 0 = .ok (c k)) →
    vacancyColumns t ks acc = .ok ((ks.map (fun k => (k, c k))).foldl (fun m e => m.insert e.1 e.2) acc) := by
  intro ks
  induction ks with
  | nil => intro acc _; rfl
  | cons k r ih =>
    intro acc h
    unfold vacancyColumns
    rw [h k (by simp)]
    simp only [Outcome.ok_bind, List.map_cons, List.foldl_cons]
    exact ih _ (fun k hk => h k (List.mem_cons_of_mem _ hk))

/-- **C75** getInitialPhotoelectricVacancyDistribution for several energies: the distributions for each of the
energies, shell by shell. -/
theorem C75_element_vacancies (e : Element K) (xs : List K) :
    e.getInitialVacanciesList xs = (each e.getInitialVacancies xs).bind (fun ds =>
      .ok (photoShells.map (fun s => (s, ds.map (fun d => at0 d s))))) := by
  unfold getInitialVacanciesList
  rw [C75_element_coefficients]
  have hd : ∀ xs : List K, each e.getInitialVacancies xs = (each e.getMu xs).bind (fun ms =>
      .ok (ms.map (fun m => photoShells.map (fun s =>
        (s, if m.photoelectric > 0 then at0 m.partials s / m.photoelectric else 0))))) := by
    intro xs
    induction xs with
    | nil => rfl
    | cons x r ih =>
      unfold each
      rw [ih]
      unfold getInitialVacancies
      cases e.getMu x with
      | ok m =>
        simp only [Outcome.ok_bind, Outcome.pure_eq]
        rw [ofList_photo (fun s => if m.photoelectric > 0 then at0 m.partials s / m.photoelectric else 0)]
        cases each e.getMu r <;> rfl
      | throw _ => rfl
      | ub _ => rfl
      | diverge => rfl
  rw [hd]
  cases hm : each e.getMu xs with
  | throw _ => rfl
  | ub _ => rfl
  | diverge => rfl
  | ok ms =>
    simp only [Outcome.bind, Outcome.ok_bind]
    show vacancyColumns (if xs = [] then [] else columnsOf muKeys (ms.map muMap)) photoShells [] = _
    have hcol : ∀ k ∈ muKeys, ((if xs = [] then [] else columnsOf muKeys (ms.map muMap) : SMap Str (List K)).find? k).getD []
        = ms.map (fun m => at0 (muMap m) k) := by
      intro k hk
      have hlen := each_length hm
      split
      · rename_i hx
        subst hx
        rw [List.length_nil] at hlen
        rw [List.length_eq_zero_iff.1 hlen]; rfl
      · unfold columnsOf
        rw [find?_map_keys (fun k => (ms.map muMap).map (fun m => at0 m k)) muKeys k hk]
        simp [List.map_map, Function.comp_def]
    have hc := vacancyColumns_eq (if xs = [] then [] else columnsOf muKeys (ms.map muMap) : SMap Str (List K))
      (fun s => ms.map (fun m => if m.photoelectric > 0 then at0 m.partials s / m.photoelectric else 0)) photoShells [] (by
        intro k hk
        have h1 := hcol k (List.mem_append_left _ hk)
        have h2 := hcol "photoelectric".toList (List.mem_append_right _ (by simp only [List.mem_cons, true_or, or_true]))
        have h3 := hcol "total".toList (List.mem_append_right _ (by simp only [List.mem_cons, true_or, or_true]))
        rw [h1, h2, h3]
        have e1 : (ms.map (fun m => at0 (muMap m) k)) = ms.map (fun m => at0 m.partials k) :=
          List.map_congr_left (fun m _ => (muMap_entries m).1 k hk)
        have e2 : (ms.map (fun m => at0 (muMap m) "photoelectric".toList)) = ms.map Mu.photoelectric :=
          List.map_congr_left (fun m _ => (muMap_entries m).2.2.2.2.2.1)
        rw [e1, e2, List.length_map]
        exact vacancyColumn_eq ms k ms [] rfl)
    rw [hc]
    have := ofList_photo (fun s => ms.map (fun m => if m.photoelectric > 0 then at0 m.partials s / m.photoelectric else 0))
    unfold SMap.ofList at this
    rw [this]
    congr 1
    apply List.map_congr_left
    intro s hs
    simp only [List.map_map, Prod.mk.injEq, true_and]
    apply List.map_congr_left
    intro m _
    simp only [Function.comp_apply, at0]
    have hf : ∀ (g : Str → K) (l : List Str), s ∈ l → SMap.find? (l.map (fun s => (s, g s))) s = some (g s) := by
      intro g l
      induction l with
      | nil => intro h; simp at h
      | cons a r ih =>
        intro h
        simp only [List.map_cons, SMap.find?_cons]
        by_cases ha : a = s
        · subst ha; simp
        · rw [if_neg ha]
          rcases List.mem_cons.1 h with h | h
          · exact absurd h.symm ha
          · exact ih h
    rw [hf (fun s => if m.photoelectric > 0 then (SMap.find? m.partials s).getD 0 / m.photoelectric else 0) _ hs]
    rfl

theorem factorsLoop_const (e : Element K) (weights : List K) (w : K) (h : ¬ weights.length > 1) :
    ∀ (xs : List K) (i : Nat), factorsLoop e weights w i xs = each (fun x => e.getFactors x w) xs := by
  intro xs
  induction xs with
  | nil => intro i; rfl
  | cons x r ih =>
    intro i
    unfold factorsLoop each
    simp only [h, if_false, Outcome.ok_bind]
    rw [ih]

theorem factorsLoop_weights (e : Element K) (weights : List K) (h : weights.length > 1) :
    ∀ (xs : List K) (i : Nat) (w : K), i + xs.length ≤ weights.length →
    factorsLoop e weights w i xs = each (fun p : K × K => e.getFactors p.1 p.2) (xs.zip (weights.drop i)) := by
  intro xs
  induction xs with
  | nil => intro i w _; rfl
  | cons x r ih =>
    intro i w hi
    simp only [List.length_cons] at hi
    have hi' : i < weights.length := by omega
    unfold factorsLoop
    rw [List.drop_eq_getElem_cons hi', List.zip_cons_cons]
    unfold each
    simp only [h, if_true, vget_lt weights i hi', Outcome.ok_bind]
    rw [ih (i + 1) weights[i] (by omega)]

/-- **C75** getPhotoelectricExcitationFactors for several energies returns, in order, what the call for one energy
returns: with the given weight of each energy, with the same weight when there is a single one, and with equal weights
adding up to one when none is given. -/
theorem C75_element_factors (e : Element K) (xs weights : List K) :
    (weights = [] → e.getFactorsList xs weights = each (fun x => e.getFactors x (1 / (xs.length : K))) xs) ∧
    (∀ w, weights = [w] → e.getFactorsList xs weights = each (fun x => e.getFactors x w) xs) ∧
    (xs.length ≤ weights.length → 1 < weights.length →
      e.getFactorsList xs weights = each (fun p : K × K => e.getFactors p.1 p.2) (xs.zip weights)) := by
  refine ⟨?_, ?_, ?_⟩
  · rintro rfl
    unfold getFactorsList
    split
    · rename_i h
      rw [List.length_eq_zero_iff.1 h]; rfl
    · simp only [List.length_nil, zero_ne_one, if_false, Outcome.ok_bind]
      exact factorsLoop_const e [] _ (by simp) xs 0
  · rintro w rfl
    unfold getFactorsList
    split
    · rename_i h
      rw [List.length_eq_zero_iff.1 h]; rfl
    · simp only [List.length_singleton, if_true, vget, List.getElem?_cons_zero, Outcome.ok_bind]
      exact factorsLoop_const e [w] _ (by simp) xs 0
  · intro h1 h2
    unfold getFactorsList
    split
    · rename_i h
      rw [List.length_eq_zero_iff.1 h]; rfl
    · have : weights.length ≠ 1 := by omega
      simp only [this, if_false, Outcome.ok_bind]
      have := factorsLoop_weights e weights h2 xs 0 (1 / (xs.length : K)) (by omega)
      simpa using this

/-- **C76** (violation) With more than one weight but fewer than energies the call reads past the end of the weights
(unless an energy before that point is refused). -/
theorem C76_short_weights_violated (e : Element K) (xs weights : List K) (h : 1 < weights.length)
    (hlt : weights.length < xs.length)
    (hok : ∀ x ∈ xs, ∀ w ∈ weights, (e.getFactors x w).isOk = true) : e.getFactorsList xs weights = .ub .outOfBounds := by
  have key : ∀ (xs : List K) (i : Nat) (w : K), weights.length < i + xs.length → i ≤ weights.length →
      (∀ x ∈ xs, ∀ w ∈ weights, (e.getFactors x w).isOk = true) → factorsLoop e weights w i xs = .ub .outOfBounds := by
    intro xs
    induction xs with
    | nil => intro i w h1 h2 _; simp at h1; omega
    | cons x r ih =>
      intro i w h1 h2 hok
      unfold factorsLoop
      simp only [h, if_true]
      by_cases hi : i < weights.length
      · rw [vget_lt weights i hi]
        simp only [Outcome.ok_bind]
        have := hok x (by simp) weights[i] (List.getElem_mem hi)
        cases hf : e.getFactors x weights[i] with
        | ok f =>
          simp only [Outcome.ok_bind]
          rw [ih (i + 1) weights[i] (by simp at h1; omega) (by omega)
            (fun x hx => hok x (List.mem_cons_of_mem _ hx))]
          rfl
        | throw _ => rw [hf] at this; simp [Outcome.isOk] at this
        | ub _ => rw [hf] at this; simp [Outcome.isOk] at this
        | diverge => rw [hf] at this; simp [Outcome.isOk] at this
      · rw [vget_ge weights i (by omega)]
        rfl
  unfold getFactorsList
  have h0 : xs.length ≠ 0 := by omega
  have h1 : weights.length ≠ 1 := by omega
  simp only [h0, h1, if_false, Outcome.ok_bind]
  exact key xs 0 _ (by omega) (by omega) hok

/-- **C76** As many weights as energies, a single weight or none: no memory is read outside of the vectors by this
call (what remains is what the calls for one energy do). -/
theorem C76_weights_partial (e : Element K) (xs weights : List K)
    (hw : weights.length ≤ 1 ∨ xs.length ≤ weights.length)
    (hok : ∀ x ∈ xs, ∀ w, (e.getFactors x w).isUB = false) : (e.getFactorsList xs weights).isUB = false := by
  have key : ∀ (α : Type) (f : α → Outcome (SMap Str (Factor K))) (l : List α), (∀ a ∈ l, (f a).isUB = false) →
      (each f l).isUB = false := by
    intro α f l
    induction l with
    | nil => intro _; rfl
    | cons a r ih =>
      intro h
      have h1 := h a (by simp)
      have h2 := ih (fun b hb => h b (List.mem_cons_of_mem _ hb))
      unfold each
      cases hf : f a with
      | ok b =>
        simp only [Outcome.ok_bind]
        cases hr : each f r with
        | ub u => rw [hr] at h2; simp [Outcome.isUB] at h2
        | _ => rfl
      | ub u => rw [hf] at h1; simp [Outcome.isUB] at h1
      | throw _ => rfl
      | diverge => rfl
  obtain ⟨h0, h1, h2⟩ := C75_element_factors e xs weights
  match weights, hw with
  | [], _ => rw [h0 rfl]; exact key _ _ _ (fun a ha => hok a ha _)
  | [w], _ => rw [h1 w rfl]; exact key _ _ _ (fun a ha => hok a ha _)
  | a :: b :: r, hw =>
    rw [h2 (by simp at hw ⊢; omega) (by simp)]
    exact key _ _ _ (fun p hp => hok p.1 (List.of_mem_zip hp).1 _)

/-- An element for the examples: a K shell and the rest, with a table at energies 1 and 2. -/
def vectorElement : Element ℚ :=
  letI := exampleTrans
  run { atomicNumber := 8, binding := [], muEnergy := [], mu := none, partialE := emptyPartials,
        partialV := emptyPartials, cacheOn := false, muCache := [], excCache := [], shells := [], cascadeOn := false,
        cascadeCache := [] }
    [.setBindingEnergies (keys.map (fun k => (k, if k = "K".toList then 1 / 2 else 0))),
      .setMass [1, 1] [3, 3] [1, 1] [1, 1] [],
      .setPartial "K".toList [1, 2] [3, 3], .setPartial allOther [1, 1] [3, 3]]

/-- The violation happens: two weights for three energies. -/
example : letI := exampleTrans
    vectorElement.getFactorsList [1, 1, 1] [1 / 2, 1 / 2] = .ub .outOfBounds ∧
    (vectorElement.getFactorsList [1, 1, 1] [1 / 2, 1 / 2, 1]).isOk = true := by
  decide +kernel

/-- The hypothesis of C75 is met with two energies: both calls return coefficients. -/
example : letI := exampleTrans
    (vectorElement.getMus [1, 1]).bind (fun t => .ok (t.find? "photoelectric".toList)) = .ok (some [6, 6]) := by
  decide +kernel

/-- **C75** setBindingEnergies with labels and energies in vectors: the energies by label, the last one when a label is
repeated; vectors of different lengths are refused and change nothing. -/
theorem C75_binding_list (e : Element K) (labels : List Str) (values : List K) :
    (labels.length = values.length →
      e.setBindingEnergiesList labels values = e.setBindingEnergies (SMap.ofList (labels.zip values))) ∧
    (labels.length ≠ values.length → e.setBindingEnergiesList labels values = (.throw .invalidArgument, e)) := by
  have key : ∀ (labels : List Str) (values : List K) (acc : SMap Str K),
      Element.labelLoop labels values acc = (labels.zip values).foldl (fun m e => m.insert e.1 e.2) acc := by
    intro labels
    induction labels with
    | nil => intro values acc; simp [Element.labelLoop]
    | cons l ls ih =>
      intro values acc
      cases values with
      | nil => simp [Element.labelLoop]
      | cons v vs => simp only [Element.labelLoop, List.zip_cons_cons, List.foldl_cons]; exact ih _ _
  unfold setBindingEnergiesList
  constructor
  · intro h
    simp only [h, ne_eq, not_true_eq_false, if_false]
    rw [key]; rfl
  · intro h
    simp only [ne_eq, h, not_false_eq_true, if_true]

end Element

/-! ### EPDL97 -/

namespace EPDL97

variable {K : Type} [Field K] [LinearOrder K] [IsStrictOrderedRing K] [Trans K]

theorem insert_keys {m m' : SMap Str K} (h : m.keys = m'.keys) (k : Str) (v v' : K) :
    (m.insert k v).keys = (m'.insert k v').keys := by
  induction m generalizing m' with
  | nil =>
    cases m' with
    | nil => rfl
    | cons _ _ => simp [SMap.keys] at h
  | cons a r ih =>
    cases m' with
    | nil => simp [SMap.keys] at h
    | cons b r' =>
      obtain ⟨k1, v1⟩ := a
      obtain ⟨k2, v2⟩ := b
      simp only [SMap.keys, List.map_cons, List.cons.injEq] at h
      obtain ⟨h1, h2⟩ := h
      subst h1
      unfold SMap.insert
      split
      · simp only [SMap.keys, List.map_cons, h2]
      · split
        · simp only [SMap.keys, List.map_cons, h2]
        · have := ih h2
          simp only [SMap.keys, List.map_cons, List.cons.injEq, true_and] at this ⊢
          exact this

theorem mem_keys_congr {m m' : SMap Str K} (h : m.keys = m'.keys) (k : Str) : m.mem k = m'.mem k := by
  induction m generalizing m' with
  | nil =>
    cases m' with
    | nil => rfl
    | cons _ _ => simp [SMap.keys] at h
  | cons a r ih =>
    cases m' with
    | nil => simp [SMap.keys] at h
    | cons b r' =>
      simp only [SMap.keys, List.map_cons, List.cons.injEq] at h
      have := ih h.2
      simp only [SMap.mem, SMap.find?_cons, h.1] at this ⊢
      split
      · rfl
      · exact this

theorem labelLoop_keys {b b' : SMap Str K} {E : List K} {r r' : Rows K} {rows : List (List K)} {x x' : K} :
    ∀ (labels : List (Str × Int)) (acc acc' m m' : SMap Str K), acc.keys = acc'.keys →
    labelLoop b E r rows x labels acc = .ok m → labelLoop b' E r' rows x' labels acc' = .ok m' → m.keys = m'.keys := by
  intro labels
  induction labels with
  | nil => intro acc acc' m m' h h1 h2; cases h1; cases h2; exact h
  | cons p rest ih =>
    obtain ⟨key, idx⟩ := p
    intro acc acc' m m' h h1 h2
    unfold labelLoop at h1 h2
    split at h1
    · rename_i hk; rw [if_pos hk] at h2; exact ih _ _ _ _ h h1 h2
    · rename_i hk
      rw [if_neg hk] at h2
      split at h1
      · rename_i hp
        rw [if_pos hp] at h2
        obtain ⟨v, _, h1⟩ := Outcome.bind_eq_ok.1 h1
        obtain ⟨v', _, h2⟩ := Outcome.bind_eq_ok.1 h2
        exact ih _ _ _ _ (insert_keys h _ _ _) h1 h2
      · rename_i hp
        rw [if_neg hp] at h2
        split at h1
        · rename_i hl
          rw [if_pos hl] at h2
          obtain ⟨v, _, h1⟩ := Outcome.bind_eq_ok.1 h1
          obtain ⟨v', _, h2⟩ := Outcome.bind_eq_ok.1 h2
          exact ih _ _ _ _ (insert_keys h _ _ _) h1 h2
        · rename_i hl
          rw [if_neg hl] at h2
          exact ih _ _ _ _ h h1 h2

theorem touch_keys : ∀ (ks : List Str) {m m' : SMap Str K}, m.keys = m'.keys → (touch m ks).keys = (touch m' ks).keys := by
  intro ks
  induction ks with
  | nil => intro m m' h; exact h
  | cons k r ih =>
    intro m m' h
    unfold touch
    simp only [List.foldl_cons]
    rw [mem_keys_congr h k]
    split
    · exact ih h
    · exact ih (insert_keys h _ _ _)

theorem finish_keys {m m' : SMap Str K} (h : m.keys = m'.keys) : (finish m).keys = (finish m').keys := by
  unfold finish
  exact insert_keys (touch_keys _ (insert_keys (touch_keys _ (insert_keys h _ _ _)) _ _ _)) _ _ _

theorem labelLoop_sorted {b : SMap Str K} {E : List K} {r : Rows K} {rows : List (List K)} {x : K} :
    ∀ (labels : List (Str × Int)) (acc m : SMap Str K), acc.Sorted →
    labelLoop b E r rows x labels acc = .ok m → m.Sorted := by
  intro labels
  induction labels with
  | nil => intro acc m h h1; cases h1; exact h
  | cons p rest ih =>
    obtain ⟨key, idx⟩ := p
    intro acc m h h1
    unfold labelLoop at h1
    repeat' split at h1
    · exact ih _ _ h h1
    · obtain ⟨v, _, h1⟩ := Outcome.bind_eq_ok.1 h1
      exact ih _ _ (SMap.insert_sorted h _ _) h1
    · obtain ⟨v, _, h1⟩ := Outcome.bind_eq_ok.1 h1
      exact ih _ _ (SMap.insert_sorted h _ _) h1
    · exact ih _ _ h h1

theorem touch_sorted : ∀ (ks : List Str) {m : SMap Str K}, m.Sorted → (touch m ks).Sorted := by
  intro ks
  induction ks with
  | nil => intro m h; exact h
  | cons k r ih =>
    intro m h
    unfold touch
    simp only [List.foldl_cons]
    split
    · exact ih h
    · exact ih (SMap.insert_sorted h _ _)

theorem finish_sorted {m : SMap Str K} (h : m.Sorted) : (finish m).Sorted := by
  unfold finish
  apply SMap.insert_sorted
  apply touch_sorted
  apply SMap.insert_sorted
  apply touch_sorted
  apply SMap.insert_sorted
  exact h

theorem getMu_sorted {e : EPDL97 K} {z : Int} {x : K} {last : Nat} {r : SMap Str K × Nat}
    (h : getMu e z x last = .ok r) : r.1.Sorted := by
  obtain ⟨m, l⟩ := r
  obtain ⟨E, rows, b, _, _, _, h1⟩ := getMu_table h
  obtain ⟨r, m', h2, h3⟩ := fromTable_finish h1
  have := labelLoop_sorted _ _ _ (List.pairwise_singleton _ _) h2
  show m.Sorted
  rw [h3]
  exact finish_sorted this

theorem getMu_keys {e : EPDL97 K} {z : Int} {x x' : K} {last last' : Nat} {r r' : SMap Str K × Nat}
    (h : getMu e z x last = .ok r) (h' : getMu e z x' last' = .ok r') : r.1.keys = r'.1.keys := by
  obtain ⟨m, l⟩ := r
  obtain ⟨m', l'⟩ := r'
  obtain ⟨E, rows, b, e1, e2, e3, h1⟩ := getMu_table h
  obtain ⟨E', rows', b', e1', e2', e3', h1'⟩ := getMu_table h'
  rw [e1, Outcome.ok.injEq] at e1'
  rw [e2, Outcome.ok.injEq] at e2'
  subst e1' e2'
  obtain ⟨q, n, h2, h3⟩ := fromTable_finish h1
  obtain ⟨q', n', h2', h3'⟩ := fromTable_finish h1'
  show m.keys = m'.keys
  rw [h3, h3']
  refine finish_keys (labelLoop_keys _ _ _ _ _ ?_ h2 h2')
  simp only [SMap.keys, List.map_cons, List.map_nil]

/-- **C75** EPDL97: getMassAttenuationCoefficients for several energies does what the calls for each of the energies
do, one after the other, and returns their values in the order of the energies, under the keys of the first result
(all the results have the same ones). -/
theorem C75_epdl97_coefficients (e : EPDL97 K) (z : Int) (xs : List K) (last : Nat) :
    e.getMus z xs last = (oneByOne (fun last x => e.getMu z x last) last xs).bind (fun r =>
      .ok (columnsOf ((r.1.head?.map SMap.keys).getD []) r.1, r.2)) := by
  unfold getMus
  by_cases hex : ∃ l x r, e.getMu z x l = .ok r
  · obtain ⟨l, x, r, hr⟩ := hex
    have hks : r.1.keys.Pairwise (· < ·) := by
      have := getMu_sorted hr
      unfold SMap.Sorted at this
      simpa only [SMap.keys, List.pairwise_map] using this
    rw [gather_eq hks (fun s y q hq => getMu_keys hq hr)]
    cases xs with
    | nil => rfl
    | cons y rest =>
      unfold oneByOne
      cases hy : e.getMu z y last with
      | ok q =>
        simp only [Outcome.ok_bind]
        cases oneByOne (fun last x => e.getMu z x last) q.2 rest with
        | ok rs =>
          simp only [Outcome.ok_bind, Outcome.pure_eq, Outcome.bind, reduceCtorEq, if_false, List.head?_cons,
            Option.map_some, Option.getD_some]
          rw [getMu_keys hy hr]
        | _ => rfl
      | _ => rfl
  · have hno : ∀ s y q, e.getMu z y s = .ok q → q.1.keys = ([] : List Str) :=
      fun s y q hq => absurd ⟨s, y, q, hq⟩ hex
    rw [gather_eq List.Pairwise.nil hno]
    cases xs with
    | nil => rfl
    | cons y rest =>
      unfold oneByOne
      cases hy : e.getMu z y last with
      | ok q => exact absurd ⟨last, y, q, hy⟩ hex
      | _ => rfl

theorem getWeights_keys {e : EPDL97 K} {z : Int} {x : K} {last : Nat} {r : SMap Str K × Nat}
    (h : getWeights e z x last = .ok r) : r.1.keys = Element.photoShells := by
  unfold getWeights at h
  obtain ⟨m, _, h1⟩ := Outcome.bind_eq_ok.1 h
  clear h
  have key : ∀ f : Str → K, (SMap.ofList (Element.photoShells.map (fun s => (s, f s)))).keys = Element.photoShells := by
    intro f
    rw [Element.ofList_photo]
    simp only [SMap.keys, List.map_map]
    exact List.map_id _
  simp only at h1
  split at h1
  · simp only [Outcome.pure_eq, Outcome.ok.injEq] at h1
    rw [← h1]
    exact key (fun _ => 0)
  · simp only [Outcome.pure_eq, Outcome.ok.injEq] at h1
    rw [← h1]
    exact key (fun s => Element.at0 m.1 s / Element.at0 m.1 "photoelectric".toList)

/-- **C75** EPDL97: the photoelectric weights for several energies are those for each of the energies. -/
theorem C75_epdl97_weights (e : EPDL97 K) (z : Int) (xs : List K) (last : Nat) :
    e.getWeightsList z xs last = (oneByOne (fun last x => e.getWeights z x last) last xs).bind (fun r =>
      .ok (if xs = [] then [] else columnsOf Element.photoShells r.1, r.2)) := by
  unfold getWeightsList
  exact gather_eq Element.photo_sorted (fun s y q hq => getWeights_keys hq) last xs

end EPDL97

/-! ### The library -/

namespace Library

variable {K : Type} [Field K] [LinearOrder K] [IsStrictOrderedRing K] [Trans K]

theorem mixList_each (L : Library K) (a : SMap String K × K) (xs : List K) :
    L.mixList a xs = each (fun x => do
      let s ← mixSum L a.2 x a.1 { energy := x, coherent := 0, compton := 0, pair := 0, photoelectric := 0, total := 0 }
      return { s with total := (s.coherent + s.compton) + s.pair + s.photoelectric }) xs := by
  induction xs with
  | nil => rfl
  | cons x r ih =>
    unfold mixList each
    rw [ih]
    cases mixSum L a.2 x a.1 { energy := x, coherent := 0, compton := 0, pair := 0, photoelectric := 0, total := 0 } <;> rfl

theorem each_ok_bind {α β γ : Type} (o : Outcome γ) (f : γ → α → Outcome β) (xs : List α) (hne : xs ≠ []) :
    each (fun x => o.bind (fun c => f c x)) xs = o.bind (fun c => each (f c) xs) := by
  cases o with
  | ok c => rfl
  | throw _ => cases xs with | nil => exact absurd rfl hne | cons _ _ => rfl
  | ub _ => cases xs with | nil => exact absurd rfl hne | cons _ _ => rfl
  | diverge => cases xs with | nil => exact absurd rfl hne | cons _ _ => rfl

/-- **C75** Elements: getMassAttenuationCoefficients of a name (element, material or formula) for one or more energies
does what the calls for each of the energies do, in order. -/
theorem C75_library_coefficients (pf : String → Outcome (SMap String K)) (L : Library K) (fuel : Nat) (name : String)
    (xs : List K) (hne : xs ≠ []) :
    L.nameMus pf fuel name xs = each (fun x => L.nameMu pf fuel name x) xs := by
  unfold nameMus nameMu
  split
  · have h := each_ok_bind (L.getElement name) (fun e x => do let m ← e.data.getMu x; return ofMu m) xs hne
    have h' : each (fun x => (do let e ← L.getElement name; let m ← e.data.getMu x; return ofMu m : Outcome (Mix K))) xs
        = (L.getElement name).bind (fun e => each (fun x => do let m ← e.data.getMu x; return ofMu m) xs) := h
    rw [h']
    cases L.getElement name with
    | throw _ => rfl
    | ub _ => rfl
    | diverge => rfl
    | ok e =>
      simp only [Outcome.ok_bind, Outcome.bind]
      rw [Element.C75_element_coefficients]
      have h2 : ∀ xs : List K, each (fun x => (do let m ← e.data.getMu x; return ofMu m : Outcome (Mix K))) xs
          = (each e.data.getMu xs).bind (fun ms => .ok (ms.map ofMu)) := by
        intro xs
        induction xs with
        | nil => rfl
        | cons x r ih =>
          unfold each
          rw [ih]
          cases e.data.getMu x with
          | ok m => cases each e.data.getMu r <;> rfl
          | throw _ => rfl
          | ub _ => rfl
          | diverge => rfl
      rw [h2]
      cases hm : each e.data.getMu xs with
      | throw _ => rfl
      | ub _ => rfl
      | diverge => rfl
      | ok ms =>
        simp only [Outcome.bind, hne, if_false, Outcome.ok_bind, Outcome.pure_eq, Outcome.ok.injEq]
        have hlen := Element.each_length hm
        have hcol : ∀ k ∈ Element.muKeys, ((columnsOf Element.muKeys (ms.map Element.muMap)).find? k).getD []
            = ms.map (fun m => Element.at0 (Element.muMap m) k) := by
          intro k hk
          unfold columnsOf
          rw [find?_map_keys (fun k => (ms.map Element.muMap).map (fun m => Element.at0 m k)) Element.muKeys k hk]
          simp [List.map_map, Function.comp_def]
        have m1 := hcol "energy".toList (List.mem_append_right _ (by simp only [List.mem_cons, true_or, or_true]))
        have m2 := hcol "coherent".toList (List.mem_append_right _ (by simp only [List.mem_cons, true_or]))
        have m3 := hcol "compton".toList (List.mem_append_right _ (by simp only [List.mem_cons, true_or, or_true]))
        have m4 := hcol "pair".toList (List.mem_append_right _ (by simp only [List.mem_cons, true_or, or_true]))
        have m5 := hcol "photoelectric".toList (List.mem_append_right _ (by simp only [List.mem_cons, true_or, or_true]))
        have m6 := hcol "total".toList (List.mem_append_right _ (by simp only [List.mem_cons, true_or, or_true]))
        rw [m1, m2, m3, m4, m5, m6]
        apply List.ext_getElem
        · simp [hlen]
        · intro i h1 h2
          have hi : i < ms.length := by simpa using h2
          simp only [List.getElem_map, List.getElem_range, List.getD_eq_getElem?_getD, List.getElem?_map,
            List.getElem?_eq_getElem hi, Option.map_some, Option.getD_some]
          obtain ⟨_, p1, p2, p3, p4, p5, p6⟩ := Element.muMap_entries ms[i]
          simp only [p1, p2, p3, p4, p5, p6, ofMu]
  · have h := each_ok_bind (comp pf L fuel name)
      (fun c x => if c.length < 1 then .throw .invalidArgument else mixMu pf L fuel c x false) xs hne
    have h' : each (fun x => (do let c ← comp pf L fuel name; if c.length < 1 then .throw .invalidArgument else mixMu pf L fuel c x false : Outcome (Mix K))) xs
        = (comp pf L fuel name).bind (fun c => each (fun x => if c.length < 1 then .throw .invalidArgument else mixMu pf L fuel c x false) xs) := h
    rw [h']
    cases comp pf L fuel name with
    | throw _ => rfl
    | ub _ => rfl
    | diverge => rfl
    | ok c =>
      simp only [Outcome.ok_bind, Outcome.bind]
      split
      · cases xs with
        | nil => exact absurd rfl hne
        | cons _ _ => rfl
      · unfold mixMus mixMu
        have h := each_ok_bind (amounts pf L fuel c false) (fun a x => do
          let s ← mixSum L a.2 x a.1 { energy := x, coherent := 0, compton := 0, pair := 0, photoelectric := 0, total := 0 }
          return { s with total := (s.coherent + s.compton) + s.pair + s.photoelectric }) xs hne
        refine Eq.trans ?_ h.symm
        cases amounts pf L fuel c false with
        | ok a => simp only [Outcome.ok_bind, Outcome.bind]; exact mixList_each L a xs
        | throw _ => rfl
        | ub _ => rfl
        | diverge => rfl

/-- **C75** Elements: getExcitationFactors of an element for one energy and weight is that of the element. -/
theorem C75_library_factors (L : Library K) (n : String) (x w : K) :
    L.getExcitationFactors n x w = (L.getElement n).bind (fun e => e.data.getFactors x w) := by
  unfold getExcitationFactors getExcitationFactorsList
  cases L.getElement n with
  | throw _ => rfl
  | ub _ => rfl
  | diverge => rfl
  | ok e =>
    simp only [Outcome.ok_bind, Outcome.bind]
    rw [(Element.C75_element_factors e.data [x] [w]).2.1 w rfl]
    unfold each
    cases e.data.getFactors x w <;> rfl

end Library

end Fisx
