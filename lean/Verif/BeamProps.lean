import Verif.Beam
import Mathlib.Data.List.Sort

/-!
# Properties of `Beam`: C06, C07
-/

set_option linter.unusedSectionVars false

namespace Fisx.Beam

variable {K : Type} [Field K] [LinearOrder K] [IsStrictOrderedRing K]

/-! ## Specification -/

/-- What `std::sort` with `Ray::operator<` guarantees. -/
def IsSort (sort : List (Ray K) → List (Ray K)) : Prop :=
  ∀ l, (sort l).Perm l ∧ (sort l).Pairwise (fun a b => a.energy ≤ b.energy)

/-- The value a user expects for position `i` of an optional vector: nothing supplied means the
default, one element means "the same for all", otherwise the `i`-th element. -/
def expected {α : Type} (v : List α) (dflt : α) (i : Nat) : α :=
  match v with
  | [] => dflt
  | [a] => a
  | _ => v.getD i dflt

/-- A supplied optional vector covers the beam: empty, one element for all, or one for each ray. -/
def Covers {α : Type} (v : List α) (n : Nat) : Prop := v.length ≤ 1 ∨ n ≤ v.length

/-- The unscaled ray a user expects for the `i`-th energy. -/
def expectedRay (energy weight : List K) (characteristic : List Int) (divergency : List K) (i : Nat) :
    Ray K :=
  { energy := energy.getD i 0, weight := expected weight 1 i,
    characteristic := expected characteristic 1 i, divergency := expected divergency 0 i }

/-! ## Helper lemmas -/

theorem pick_ok {α : Type} (v : List α) (dflt : α) (i n : Nat) (hi : i < n) (h : Covers v n) :
    pick v dflt i = .ok (expected v dflt i) := by
  match v with
  | [] => rfl
  | [a] => rfl
  | a :: b :: r =>
    have hl : i < (a :: b :: r).length := by
      rcases h with h | h
      · simp at h
      · omega
    unfold pick
    rw [if_pos (by simp), vget_lt _ _ hl]
    simp only [expected]
    congr 1
    rw [List.getD_eq_getElem?_getD, List.getElem?_eq_getElem hl]
    rfl

theorem pick_ub {α : Type} (v : List α) (dflt : α) (i : Nat) (h1 : 1 < v.length)
    (h2 : v.length ≤ i) : pick v dflt i = .ub .outOfBounds := by
  unfold pick
  rw [if_pos h1, vget_ge _ _ h2]

theorem pick_cases {α : Type} (v : List α) (dflt : α) (i : Nat) :
    (∃ a, pick v dflt i = .ok a) ∨ pick v dflt i = .ub .outOfBounds := by
  unfold pick vget
  split
  · split
    · left; exact ⟨_, rfl⟩
    · right; rfl
  · left; exact ⟨_, rfl⟩

theorem buildRays_ok (energy : List K) (i : Nat) (w : List K) (c : List Int) (d : List K) (n : Nat)
    (hn : i + energy.length ≤ n) (hw : Covers w n) (hc : Covers c n) (hd : Covers d n) :
    buildRays energy i w c d = .ok (energy.mapIdx (fun k e =>
      { energy := e, weight := expected w 1 (i + k), characteristic := expected c 1 (i + k),
        divergency := expected d 0 (i + k) })) := by
  induction energy generalizing i with
  | nil => rfl
  | cons e r ih =>
    simp only [List.length_cons] at hn
    simp only [buildRays, pick_ok w 1 i n (by omega) hw, pick_ok c 1 i n (by omega) hc,
      pick_ok d 0 i n (by omega) hd, Outcome.ok_bind]
    rw [ih (i + 1) (by omega)]
    simp only [Outcome.ok_bind, Outcome.pure_eq, List.mapIdx_cons, Nat.add_zero]
    congr 3
    funext k e
    simp [Nat.add_assoc, Nat.add_comm 1 k]

theorem buildRays_ub (energy : List K) (i : Nat) (w : List K) (c : List Int) (d : List K)
    (h : (1 < w.length ∧ w.length < i + energy.length) ∨ (1 < c.length ∧ c.length < i + energy.length)
      ∨ (1 < d.length ∧ d.length < i + energy.length)) (he : energy ≠ []) :
    buildRays energy i w c d = .ub .outOfBounds := by
  induction energy generalizing i with
  | nil => exact absurd rfl he
  | cons e r ih =>
    simp only [List.length_cons] at h
    unfold buildRays
    rcases pick_cases w 1 i with ⟨a, ha⟩ | ha
    · rcases pick_cases c 1 i with ⟨b, hb⟩ | hb
      · rcases pick_cases d 0 i with ⟨g, hg⟩ | hg
        · simp only [ha, hb, hg, Outcome.ok_bind]
          by_cases hr : r = []
          · subst hr
            exfalso
            simp only [List.length_nil] at h
            rcases h with h | h | h
            · rw [pick_ub w 1 i h.1 (by omega)] at ha; simp at ha
            · rw [pick_ub c 1 i h.1 (by omega)] at hb; simp at hb
            · rw [pick_ub d 0 i h.1 (by omega)] at hg; simp at hg
          · rw [ih (i + 1) (by omega) hr]
            rfl
        · simp [ha, hb, hg]
      · simp [ha, hb]
    · simp [ha]

theorem covers_dec {α : Type} (v : List α) (n : Nat) :
    Covers v n ∨ (1 < v.length ∧ v.length < n) := by
  unfold Covers; omega

theorem setBeam_result (sort : List (Ray K) → List (Ray K)) (b : Beam K) (energy weight : List K)
    (characteristic : List Int) (divergency : List K) (hne : energy ≠ [])
    (hw : Covers weight energy.length) (hc : Covers characteristic energy.length)
    (hd : Covers divergency energy.length) :
    setBeam sort b energy weight characteristic divergency = (.ok (), normalizeBeam sort
      ((List.range energy.length).map (expectedRay energy weight characteristic divergency))) := by
  unfold setBeam
  have : energy.length > 0 := List.length_pos_iff.2 hne
  rw [if_pos this, buildRays_ok energy 0 weight characteristic divergency energy.length (by omega) hw hc hd]
  simp only [Prod.mk.injEq, true_and]
  congr 1
  apply List.ext_getElem
  · simp
  · intro i h1 h2
    simp at h1
    simp [expectedRay, h1]

theorem totalWeight_perm {a b : List (Ray K)} (h : a.Perm b) : totalWeight a = totalWeight b :=
  (h.map Ray.weight).sum_eq

theorem totalWeight_scaled (l : List (Ray K)) (t : K) :
    totalWeight (l.map (fun r => { r with weight := r.weight / t })) = totalWeight l / t := by
  unfold totalWeight
  induction l with
  | nil => simp
  | cons a r ih =>
    simp only [List.map_cons, List.sum_cons] at ih ⊢
    rw [ih, add_div]

/-! ## C06 -/

/-- Property C06. For every list of energies and optional vectors covering it, `setBeam` succeeds,
forgets the previous beam, and the beam read back (1) is sorted by energy, (2) consists of exactly one
ray for each supplied energy, with its characteristic flag and divergency, its weight divided by the
total weight when that is positive and unchanged otherwise, and (3) has weights that sum to one
whenever the supplied total is positive. -/
theorem C06_setBeam (sort : List (Ray K) → List (Ray K)) (hsort : IsSort sort) (b : Beam K)
    (energy weight : List K) (characteristic : List Int) (divergency : List K)
    (hw : Covers weight energy.length) (hc : Covers characteristic energy.length)
    (hd : Covers divergency energy.length) :
    let res := setBeam sort b energy weight characteristic divergency
    let W := ((List.range energy.length).map (expected weight 1)).sum
    res.1 = .ok () ∧
    res.2.rays.Pairwise (fun r s => r.energy ≤ s.energy) ∧
    res.2.rays.Perm ((List.range energy.length).map (fun i =>
      { energy := energy.getD i 0, weight := if 0 < W then expected weight 1 i / W else expected weight 1 i,
        characteristic := expected characteristic 1 i, divergency := expected divergency 0 i })) ∧
    (0 < W → (res.2.rays.map Ray.weight).sum = 1) := by
  intro res W
  by_cases hne : energy = []
  · subst hne
    have hres : res = (.ok (), { normalized := false, rays := [] }) := by simp [res, setBeam]
    simp [hres, W]
  have hres : res = _ := setBeam_result sort b energy weight characteristic divergency hne hw hc hd
  set l := (List.range energy.length).map (expectedRay energy weight characteristic divergency) with hl
  have hW : totalWeight l = W := by
    simp only [totalWeight, hl, List.map_map, W]
    rfl
  rw [hres]
  simp only [normalizeBeam]
  refine ⟨trivial, (hsort _).2, ?_, ?_⟩
  · refine (hsort _).1.trans ?_
    rw [hW]
    split
    · rename_i h
      rw [hl, List.map_map]
      apply List.Perm.of_eq
      apply List.map_congr_left
      intro i _
      simp [expectedRay]
    · rename_i h
      rw [hl]
      apply List.Perm.of_eq
      apply List.map_congr_left
      intro i _
      simp [expectedRay]
  · intro hpos
    have h1 := totalWeight_perm (hsort (if totalWeight l > 0 then
      l.map (fun r => { r with weight := r.weight / totalWeight l }) else l)).1
    unfold totalWeight at h1 ⊢
    rw [h1]
    have h2 : (List.map Ray.weight l).sum > 0 := by
      have := hW; unfold totalWeight at this; rw [this]; exact hpos
    rw [if_pos h2]
    have h3 := totalWeight_scaled l (List.map Ray.weight l).sum
    unfold totalWeight at h3
    rw [h3, div_self (ne_of_gt h2)]

/-- Insertion sort is one admissible `std::sort`, so C06 is not vacuous in its sort parameter. -/
theorem insertionSort_isSort :
    IsSort (fun l : List (Ray K) => l.insertionSort (fun a b => a.energy ≤ b.energy)) := by
  intro l
  refine ⟨List.perm_insertionSort _ l, ?_⟩
  have : Std.Total (fun a b : Ray K => a.energy ≤ b.energy) := ⟨fun a b => le_total _ _⟩
  have : IsTrans (Ray K) (fun a b : Ray K => a.energy ≤ b.energy) := ⟨fun a b c => le_trans⟩
  exact List.pairwise_insertionSort _ l

/-- A concrete beam: three unsorted energies, one common divergency, weights 1,2,1. -/
example : Covers ([1, 2, 1] : List ℚ) 3 ∧ Covers ([] : List Int) 3 ∧ Covers ([5] : List ℚ) 3 ∧
    (setBeam (fun l : List (Ray ℚ) => l.insertionSort (fun a b => a.energy ≤ b.energy)) new
      [20, 10, 15] [1, 2, 1] [] [5]).2.rays
      = [⟨10, 1/2, 1, 5⟩, ⟨15, 1/4, 1, 5⟩, ⟨20, 1/4, 1, 5⟩] := by
  refine ⟨Or.inr (by decide), Or.inl (by decide), Or.inl (by decide), by decide +kernel⟩

/-- The single energy beam has one ray of weight one. -/
theorem C06_single (sort : List (Ray K) → List (Ray K)) (hsort : IsSort sort) (b : Beam K) (e d : K) :
    (setSingleEnergyBeam sort b e d).1 = .ok () ∧
    (setSingleEnergyBeam sort b e d).2.rays = [⟨e, 1, 1, d⟩] := by
  refine ⟨rfl, ?_⟩
  simp only [setSingleEnergyBeam, normalizeBeam, totalWeight, List.map_cons, List.map_nil, List.sum_cons,
    List.sum_nil, add_zero, gt_iff_lt, zero_lt_one, if_true, div_one]
  exact List.perm_singleton.1 (hsort _).1

/-- What is used of an optional array: the default for all rays when there is none. -/
def expectedPtr {α : Type} (v : Option (List α)) (dflt : α) (i : Nat) : α :=
  match v with
  | none => dflt
  | some l => l.getD i dflt

/-- An array, if given, has at least `n` values. -/
def CoversPtr {α : Type} (v : Option (List α)) (n : Nat) : Prop := ∀ l, v = some l → n ≤ l.length

theorem vget_getD {α : Type} (l : List α) (d : α) (i : Nat) (h : i < l.length) : vget l i = .ok (l.getD i d) := by
  unfold vget
  rw [List.getElem?_eq_getElem h]
  simp [h]

theorem buildRaysPtr_ok (n : Nat) : ∀ (i : Nat) (energy : List K) (w : Option (List K)) (c : Option (List Int))
    (d : Option (List K)), i + n ≤ energy.length → CoversPtr w (i + n) → CoversPtr c (i + n) → CoversPtr d (i + n) →
    buildRaysPtr n i energy w c d = .ok ((List.range n).map (fun k =>
      { energy := energy.getD (i + k) 0, weight := expectedPtr w 1 (i + k), characteristic := expectedPtr c 1 (i + k),
        divergency := expectedPtr d 0 (i + k) })) := by
  induction n with
  | zero => intros; rfl
  | succ n ih =>
    intro i energy w c d he hw hc hd
    have e1 : vget energy i = .ok (energy.getD i 0) := vget_getD _ _ _ (by omega)
    have e2 : pickPtr w 1 i = .ok (expectedPtr w 1 i) := by
      cases w with
      | none => rfl
      | some v => exact vget_getD _ _ _ (by have := hw v rfl; omega)
    have e3 : pickPtr c 1 i = .ok (expectedPtr c 1 i) := by
      cases c with
      | none => rfl
      | some v => exact vget_getD _ _ _ (by have := hc v rfl; omega)
    have e4 : pickPtr d 0 i = .ok (expectedPtr d 0 i) := by
      cases d with
      | none => rfl
      | some v => exact vget_getD _ _ _ (by have := hd v rfl; omega)
    have e5 := ih (i + 1) energy w c d (by omega) (fun l hl => by have := hw l hl; omega)
      (fun l hl => by have := hc l hl; omega) (fun l hl => by have := hd l hl; omega)
    rw [buildRaysPtr, e1, Outcome.ok_bind, e2, Outcome.ok_bind, e3, Outcome.ok_bind, e4, Outcome.ok_bind, e5,
      Outcome.ok_bind, List.range_succ_eq_map, List.map_cons, List.map_map]
    simp only [Outcome.pure_eq, Nat.add_zero]
    congr 2
    apply List.map_congr_left
    intro k _
    simp only [Function.comp, Nat.succ_eq_add_one]
    rw [show i + 1 + k = i + (k + 1) by omega]

/-- C06 for what `normalizeBeam` leaves. -/
theorem normalizeBeam_spec (sort : List (Ray K) → List (Ray K)) (hsort : IsSort sort) (l : List (Ray K)) :
    (normalizeBeam sort l).rays.Pairwise (fun r s => r.energy ≤ s.energy) ∧
    (normalizeBeam sort l).rays.Perm (l.map (fun r => { r with
      weight := if 0 < (l.map Ray.weight).sum then r.weight / (l.map Ray.weight).sum else r.weight })) ∧
    (0 < (l.map Ray.weight).sum → ((normalizeBeam sort l).rays.map Ray.weight).sum = 1) := by
  simp only [normalizeBeam]
  refine ⟨(hsort _).2, (hsort _).1.trans ?_, ?_⟩
  · apply List.Perm.of_eq
    unfold totalWeight
    by_cases h : 0 < (l.map Ray.weight).sum
    · simp [h]
    · simp [h]
  · intro h
    have h1 := totalWeight_perm (hsort (if totalWeight l > 0 then
      l.map (fun r => { r with weight := r.weight / totalWeight l }) else l)).1
    unfold totalWeight at h1 ⊢
    rw [h1, if_pos h]
    have h3 := totalWeight_scaled l (List.map Ray.weight l).sum
    unfold totalWeight at h3
    rw [h3, div_self (ne_of_gt h)]

/-- Property C06 for the overload with arrays: the first `n` values of each array are used, a null pointer gives the
default, the previous beam is forgotten. -/
theorem C06_pointers (sort : List (Ray K) → List (Ray K)) (hsort : IsSort sort) (b : Beam K) (n : Nat) (energy : List K)
    (weight : Option (List K)) (characteristic : Option (List Int)) (divergency : Option (List K))
    (he : n ≤ energy.length) (hw : CoversPtr weight n) (hc : CoversPtr characteristic n) (hd : CoversPtr divergency n) :
    let res := setBeamPtr sort b n energy weight characteristic divergency
    let W := ((List.range n).map (expectedPtr weight 1)).sum
    res.1 = .ok () ∧
    res.2.rays.Pairwise (fun r s => r.energy ≤ s.energy) ∧
    res.2.rays.Perm ((List.range n).map (fun i =>
      { energy := energy.getD i 0, weight := if 0 < W then expectedPtr weight 1 i / W else expectedPtr weight 1 i,
        characteristic := expectedPtr characteristic 1 i, divergency := expectedPtr divergency 0 i })) ∧
    (0 < W → (res.2.rays.map Ray.weight).sum = 1) := by
  intro res W
  have hb := buildRaysPtr_ok n 0 energy weight characteristic divergency (by omega) (by simpa using hw)
    (by simpa using hc) (by simpa using hd)
  have hres : res = (.ok (), normalizeBeam sort ((List.range n).map (fun k =>
      ({ energy := energy.getD (0 + k) 0, weight := expectedPtr weight 1 (0 + k),
         characteristic := expectedPtr characteristic 1 (0 + k),
         divergency := expectedPtr divergency 0 (0 + k) } : Ray K)))) := by
    show setBeamPtr sort b n energy weight characteristic divergency = _
    unfold setBeamPtr
    rw [hb]
  rw [hres]
  obtain ⟨h1, h2, h3⟩ := normalizeBeam_spec sort hsort ((List.range n).map (fun k =>
    ({ energy := energy.getD (0 + k) 0, weight := expectedPtr weight 1 (0 + k),
       characteristic := expectedPtr characteristic 1 (0 + k), divergency := expectedPtr divergency 0 (0 + k) } : Ray K)))
  have hW : ((((List.range n).map (fun k =>
    ({ energy := energy.getD (0 + k) 0, weight := expectedPtr weight 1 (0 + k),
       characteristic := expectedPtr characteristic 1 (0 + k), divergency := expectedPtr divergency 0 (0 + k) } : Ray K)))).map
       Ray.weight).sum = W := by
    rw [List.map_map]
    simp only [W]
    congr 1
    apply List.map_congr_left
    intro k _
    simp
  rw [hW] at h2 h3
  refine ⟨rfl, h1, h2.trans (List.Perm.of_eq ?_), h3⟩
  rw [List.map_map]
  apply List.map_congr_left
  intro k _
  simp

/-- Three energies and weights, the rest left out. -/
example : (3 : Nat) ≤ [20, 10, (15 : ℚ)].length ∧ CoversPtr (some [1, 2, (1 : ℚ)]) 3 ∧
    CoversPtr (none : Option (List Int)) 3 ∧
    (setBeamPtr (fun l : List (Ray ℚ) => l.insertionSort (fun a b => a.energy ≤ b.energy)) new 3
      [20, 10, 15] (some [1, 2, 1]) none none).2.rays
      = [⟨10, 1/2, 1, 0⟩, ⟨15, 1/4, 1, 0⟩, ⟨20, 1/4, 1, 0⟩] := by
  refine ⟨by decide, ?_, ?_, by decide +kernel⟩
  · intro l h; cases h; decide
  · intro l h; cases h

/-- Property C06 for the overload with `double` characteristics: that of the other overload with the truncated values. -/
theorem C06_double_pointers (trunc : K → Int) (sort : List (Ray K) → List (Ray K)) (b : Beam K) (n : Nat) (energy : List K)
    (weight : Option (List K)) (characteristic : List K) (divergency : Option (List K)) (hc : n ≤ characteristic.length) :
    setBeamPtrD trunc sort b n energy weight (some characteristic) divergency =
      setBeamPtr sort b n energy weight (some ((characteristic.take n).map trunc)) divergency ∧
    CoversPtr (some ((characteristic.take n).map trunc)) n := by
  refine ⟨by simp [setBeamPtrD, not_lt.2 hc], fun l hl => ?_⟩
  cases hl
  simp [hc]

/-- Property C06, reading back as vectors: the vectors have one entry for each ray, the one of that ray. -/
theorem C06_read_back (b : Beam K) (i : Nat) (r : Ray K) :
    (b.asVectors.1.length = b.rays.length ∧ b.asVectors.2.1.length = b.rays.length ∧
      b.asVectors.2.2.1.length = b.rays.length ∧ b.asVectors.2.2.2.length = b.rays.length) ∧
    (b.rays[i]? = some r ↔ b.asVectors.1[i]? = some r.energy ∧ b.asVectors.2.1[i]? = some r.weight ∧
      b.asVectors.2.2.1[i]? = some r.characteristic ∧ b.asVectors.2.2.2[i]? = some r.divergency) := by
  refine ⟨⟨by simp [asVectors], by simp [asVectors], by simp [asVectors], by simp [asVectors]⟩, ?_⟩
  simp only [asVectors, List.getElem?_map]
  cases h : b.rays[i]? with
  | none => simp
  | some q =>
    cases q; cases r
    simp

/-! ## C07 -/

/-- Property C07, exact characterisation: `setBeam` reads outside one of the supplied vectors if and only if the
beam is not empty and an optional vector has at least two elements but fewer than the energies. -/
theorem C07_out_of_bounds_iff (sort : List (Ray K) → List (Ray K)) (b : Beam K)
    (energy weight : List K) (characteristic : List Int) (divergency : List K) :
    (setBeam sort b energy weight characteristic divergency).1 = .ub .outOfBounds ↔
      (1 < weight.length ∧ weight.length < energy.length) ∨
      (1 < characteristic.length ∧ characteristic.length < energy.length) ∨
      (1 < divergency.length ∧ divergency.length < energy.length) := by
  by_cases hne : energy = []
  · subst hne
    simp [setBeam]
  have hpos : energy.length > 0 := List.length_pos_iff.2 hne
  constructor
  · intro h
    rcases covers_dec weight energy.length with hw | hw
    · rcases covers_dec characteristic energy.length with hc | hc
      · rcases covers_dec divergency energy.length with hd | hd
        · rw [setBeam_result sort b energy weight characteristic divergency hne hw hc hd] at h
          simp at h
        · exact Or.inr (Or.inr hd)
      · exact Or.inr (Or.inl hc)
    · exact Or.inl hw
  · intro h
    unfold setBeam
    rw [if_pos hpos, buildRays_ub energy 0 weight characteristic divergency (by simpa using h) hne]

/-- C07 as stated ("whatever their lengths") is false: three energies with two weights. -/
theorem C07_violated : ∃ (energy weight : List ℚ),
    (setBeam (fun l => l) new energy weight [] []).1 = .ub .outOfBounds :=
  ⟨[1, 2, 3], [1, 1], by decide +kernel⟩

/-- C07 for the overloads with arrays: the characteristics may be left out with the `int` overload, with the `double` one
the null pointer is read. -/
theorem C07_null_violated (trunc : K → Int) (sort : List (Ray K) → List (Ray K)) (b : Beam K) (n : Nat) (hn : 0 < n)
    (energy : List K) (he : n ≤ energy.length) (weight divergency : Option (List K)) (hw : CoversPtr weight n)
    (hd : CoversPtr divergency n) :
    (setBeamPtr sort b n energy weight none divergency).1 = .ok () ∧
    (setBeamPtrD trunc sort b n energy weight none divergency).1 = .ub .nullDeref := by
  constructor
  · unfold setBeamPtr
    rw [buildRaysPtr_ok n 0 energy weight none divergency (by omega) (by simpa using hw) (fun l hl => by cases hl)
      (by simpa using hd)]
  · simp [setBeamPtrD, Nat.pos_iff_ne_zero.1 hn]

/-- The part of C07 that holds: vectors that are empty, have one element, or at least as many as the
energies are read within bounds, and the call succeeds. -/
theorem C07_partial (sort : List (Ray K) → List (Ray K)) (b : Beam K)
    (energy weight : List K) (characteristic : List Int) (divergency : List K)
    (hw : Covers weight energy.length) (hc : Covers characteristic energy.length)
    (hd : Covers divergency energy.length) :
    (setBeam sort b energy weight characteristic divergency).1 = .ok () := by
  by_cases hne : energy = []
  · subst hne; simp [setBeam]
  · rw [setBeam_result sort b energy weight characteristic divergency hne hw hc hd]

end Fisx.Beam
