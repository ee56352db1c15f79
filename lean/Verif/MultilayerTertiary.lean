import Verif.MultilayerThick
import Verif.MultilayerC46

/-!
# C85: tertiary excitation of `XRF::getMultilayerFluorescence`

The approximation of the tertiary excitation, in terms of what the same call returns for the primary and secondary
excitation of the lines.
-/

set_option linter.unusedSectionVars false

namespace Fisx
namespace Multilayer

open Xrf (Request)

/-! ## Specification -/

section spec

variable {K : Type} [Field K] [LinearOrder K] [IsStrictOrderedRing K]

/-- How much stronger a line is because of the secondary excitation. -/
def gain (l : Leaf K) : K := if 0 < l.primary then (l.primary + l.secondary) / l.primary else 1

/-- The line that appears as the source `n` among the contributions is returned for a layer with at least 0.5 % of its
element, and the secondary excitation makes it stronger by the factor `f`, of at least 1.01. -/
def Enhanced (r : Result K) (n : Str) (f : K) : Prop :=
  ∃ k j u l, leaf? r k j u = some l ∧ ' ' ∉ u ∧ n = sourceName (familyElement k ++ ' ' :: u) j ∧
    5 / 1000 ≤ l.massFraction ∧ 101 / 100 ≤ gain l ∧ f = gain l

/-- The excess of the sources over their primary excitation, where `F` tells how much stronger each source is. -/
def excess (F : Str → K) (l : Leaf K) : K := (l.contrib.map (fun e => e.2 * (F e.1 - 1))).sum

end spec

/-! ## The order of the entries -/

section order

variable {K : Type} [Field K] [LinearOrder K] [IsStrictOrderedRing K]

/-- The keys and the layers are in the order of the maps. -/
def Ordered (r : Result K) : Prop := SMap.Sorted r ∧ ∀ e ∈ r, SMap.Sorted e.2

theorem Ordered.find {r : Result K} (h : Ordered r) (k : String) : SMap.Sorted ((SMap.find? r k).getD []) := by
  cases hk : SMap.find? r k with
  | none => exact List.Pairwise.nil
  | some m => exact h.2 _ (SMap.mem_of_find? hk)

theorem Ordered.put {r : Result K} (h : Ordered r) (k : String) (i : Nat) (t : Str) (v : Leaf K) :
    Ordered (put r k i t v) := by
  refine ⟨SMap.insert_sorted h.1 _ _, ?_⟩
  intro e he
  rcases (SMap.mem_insert_iff h.1).mp he with rfl | ⟨he, -⟩
  · exact SMap.insert_sorted (h.find k) _ _
  · exact h.2 e he

theorem ordered_openLines {env : Env K} {key family : String} {i : Nat} {g thr : K} : ∀ (fs : List (Str × Factor K))
    (res : Result K) (x : List (Str × Tmp K) × Result K), Ordered res →
    openLines env key family i g thr fs res = .ok x → Ordered x.2
  | [], res, x, ho, h => by
    simp only [openLines, Outcome.ok.injEq] at h
    subst h
    exact ho
  | (t, f) :: rest, res, x, ho, h => by
    unfold openLines at h
    split at h
    · exact ordered_openLines rest res x ho h
    split at h
    · exact ordered_openLines rest res x ho h
    split at h
    · obtain ⟨r, h1, h⟩ := Outcome.bind_eq_ok.mp h
      simp only [Outcome.pure_eq, Outcome.ok.injEq] at h
      subst h
      exact ordered_openLines rest res r ho h1
    · obtain ⟨m, -, h⟩ := Outcome.bind_eq_ok.mp h
      obtain ⟨d, -, h⟩ := Outcome.bind_eq_ok.mp h
      obtain ⟨r, h1, h⟩ := Outcome.bind_eq_ok.mp h
      simp only [Outcome.pure_eq, Outcome.ok.injEq] at h
      subst h
      exact ordered_openLines rest _ r (ho.put _ _ _ _) h1

theorem ordered_contributions (key : String) (i : Nat) : ∀ (cs : List (Contribution K))
    (s : List (Str × Tmp K) × Result K), Ordered s.2 → Ordered (cs.foldl (addContribution key i) s).2
  | [], _, h => h
  | c :: cs, s, h => by
    rw [List.foldl_cons]
    exact ordered_contributions key i cs _ (h.put _ _ _ _)

theorem ordered_depositEscapes (key : String) (i : Nat) (t : Str) (p : Tmp K) : ∀ (es : List (String × Line K))
    (r : Result K), Ordered r → Ordered (depositEscapes key i t p es r)
  | [], _, h => h
  | (n, e) :: es, r, h => by
    rw [depositEscapes]
    exact ordered_depositEscapes key i t p es _ (h.put _ _ _ _)

theorem ordered_deposit (env : Env K) (key : String) (i : Nat) (mf : K) : ∀ (ls : List (Str × Tmp K)) (r r' : Result K),
    Ordered r → deposit env key i mf ls r = .ok r' → Ordered r'
  | [], r, r', ho, h => by
    simp only [deposit, Outcome.ok.injEq] at h
    exact h ▸ ho
  | (t, p) :: ls, r, r', ho, h => by
    rw [deposit] at h
    obtain ⟨esc, -, h⟩ := Outcome.bind_eq_ok.mp h
    exact ordered_deposit env key i mf ls _ r' ((ordered_depositEscapes key i t p esc r ho).put _ _ _ _) h

theorem ordered_cell {env : Env K} {o : Options K} {rd : RayData K} {req : Request} {thr : K}
    {factors : SMap Str (Factor K)} {i : Nat} {l : LayerData K} {r r' : Result K} (ho : Ordered r)
    (h : cell env o rd req thr factors i l r = .ok r') : Ordered r' := by
  unfold cell at h
  dsimp only at h
  generalize (if o.useMassFractions then (l.composition.find? req.element).getD 0 else 1) = frac at h
  split at h
  · simp only [Outcome.ok.injEq] at h
    exact h ▸ ho
  split at h
  · simp only [Outcome.ok.injEq] at h
    exact h ▸ ho
  obtain ⟨x, h1, h⟩ := Outcome.bind_eq_ok.mp h
  have h2 := ordered_openLines _ _ _ ho h1
  split at h
  · simp only [Outcome.pure_eq, Outcome.ok.injEq] at h
    exact h ▸ h2
  obtain ⟨muIn, -, h⟩ := Outcome.bind_eq_ok.mp h
  obtain ⟨p, -, h⟩ := Outcome.bind_eq_ok.mp h
  obtain ⟨cs, -, h⟩ := Outcome.bind_eq_ok.mp h
  exact ordered_deposit _ _ _ _ _ _ _ (ordered_contributions _ _ cs
    (x.1.map (fun e => (e.1, primaryOf env l muIn p.1 frac e.2)), x.2) h2) h

/-- The mass fraction returned with the lines of an element is the one of the element in the layer. -/
def MassOk (env : Env K) (r : Result K) : Prop :=
  ∀ k i t l, Plain t → leaf? r k i t = some l → ∃ el fam layer, k = el ++ " " ++ fam ∧ Plain el.toList ∧
    env.layers[i]? = some layer ∧ l.massFraction = (layer.composition.find? el).getD 0

theorem massOk_cell {env : Env K} (hreg : Regular env) {o : Options K} {rd : RayData K} {req : Request} {thr : K}
    {factors : SMap Str (Factor K)} {i : Nat} {l : LayerData K} {r r' : Result K} (hp : Plain req.element.toList)
    (hl : env.layers[i]? = some l) {e w : K} (hex : env.excite req.element e w = .ok factors) (ho : MassOk env r)
    (h : cell env o rd req thr factors i l r = .ok r') : MassOk env r' := by
  have hf : SMap.Sorted factors := hreg.factors _ _ _ _ hex
  have hpl : ∀ t ∈ factors.map Prod.fst, Plain t := hreg.names _ _ _ _ hex
  rcases cell_spec env o rd req thr factors i l r r' (fun e esc he => SMap.keys_nodup (hreg.escape e esc he))
    (SMap.keys_nodup hf) hpl h with ⟨hna, rfl⟩ | ⟨ha, muIn, lw, mu0, lines, cs, g1, g2, h1, g3, h2, h3, h4⟩
  · exact ho
  intro k i' t l' ht hl'
  by_cases hh : keyOf req = k ∧ i = i' ∧ t ∈ (selected req.family factors).map Prod.fst
  · obtain ⟨rfl, rfl, hts⟩ := hh
    rw [← h1] at hts
    obtain ⟨⟨t', p⟩, hpm, rfl⟩ := List.mem_map.mp hts
    obtain ⟨f, l0, esc, hfm, rfl, he⟩ := h2 _ _ hpm
    have hl2 := he.line
    rw [hl'] at hl2
    simp only [Option.some.injEq] at hl2
    subst hl2
    exact ⟨req.element, req.family, l, rfl, hp, hl, rfl⟩
  · refine ho k i' t l' ht ?_
    rw [← hl']
    refine (h3 k i' t ?_).symm
    rintro ⟨rfl, rfl, h5 | ⟨u, hu, m, rfl⟩⟩
    · exact hh ⟨rfl, rfl, h5⟩
    · exact not_plain_escName _ _ ht

/-- Both invariants, with the one of the escape peaks. -/
structure Before (env : Env K) (r : Result K) : Prop where
  inv : Inv env r
  ordered : Ordered r
  mass : MassOk env r

theorem before_cellLoop {env : Env K} (hreg : Regular env) (o : Options K) (rd : RayData K) (req : Request) (thr : K)
    (factors : SMap Str (Factor K)) (hp : Plain req.element.toList) {e w : K}
    (hex : env.excite req.element e w = .ok factors) :
    ∀ (ls : List (LayerData K)) (i : Nat) (r r' : Result K), env.layers.drop i = ls → Before env r →
      cellLoop env o rd req thr factors i ls r = .ok r' → Before env r' := by
  intro ls
  induction ls with
  | nil =>
    intro i r r' _ hb h
    simp only [cellLoop, Outcome.ok.injEq] at h
    exact h ▸ hb
  | cons l rest ih =>
    intro i r r' hd hb h
    rw [cellLoop] at h
    obtain ⟨r1, h1, h⟩ := Outcome.bind_eq_ok.mp h
    have hl : env.layers[i]? = some l := by
      have := List.getElem?_drop (xs := env.layers) (i := i) (j := 0)
      rw [hd] at this
      simpa using this.symm
    refine ih (i + 1) r1 r' ?_ ⟨inv_cell env hreg o rd req thr factors i l r r1 ⟨_, _, _, hex⟩ hb.inv h1,
      ordered_cell hb.ordered h1, massOk_cell hreg hp hl hex hb.mass h1⟩ h
    rw [← List.drop_drop, hd]
    rfl

theorem before_requestLoop {env : Env K} (hreg : Regular env) (o : Options K) (rd : RayData K) :
    ∀ (reqs : List Request), (∀ req ∈ reqs, Plain req.element.toList) → ∀ (n : Nat) (thrs thrs' : List K)
      (r r' : Result K), Before env r →
      requestLoop env o rd n (reqs.map .ok) thrs r = .ok (thrs', r') → Before env r' := by
  intro reqs
  induction reqs with
  | nil =>
    intro _ n thrs thrs' r r' hi h
    simp only [List.map_nil, requestLoop, Outcome.ok.injEq, Prod.mk.injEq] at h
    exact h.2 ▸ hi
  | cons q rest ih =>
    intro hp n thrs thrs' r r' hi h
    have hp' := fun req hr => hp req (List.mem_cons_of_mem _ hr)
    rw [List.map_cons, requestLoop] at h
    obtain ⟨req, h1, h⟩ := Outcome.bind_eq_ok.mp h
    simp only [Outcome.ok.injEq] at h1
    subst h1
    obtain ⟨⟨thr, thrs1⟩, h2, h⟩ := Outcome.bind_eq_ok.mp h
    simp only at h
    split at h
    · exact ih hp' _ _ _ r r' hi h
    · obtain ⟨fs, h3, h⟩ := Outcome.bind_eq_ok.mp h
      obtain ⟨r1, h4, h⟩ := Outcome.bind_eq_ok.mp h
      exact ih hp' _ _ _ r1 r' (before_cellLoop hreg o rd q thr fs (hp q List.mem_cons_self) h3 _ 0 r r1 rfl hi h4) h

theorem before_rayLoop {env : Env K} (hreg : Regular env) (o : Options K) (reqs : List Request)
    (hp : ∀ req ∈ reqs, Plain req.element.toList) :
    ∀ (rays : List (K × K)) (thrs : List K) (m : K) (r r' : Result K), Before env r →
      rayLoop env o (reqs.map .ok) rays thrs m r = .ok r' → Before env r' := by
  intro rays
  induction rays with
  | nil =>
    intro thrs m r r' hi h
    simp only [rayLoop, Outcome.ok.injEq] at h
    exact h ▸ hi
  | cons ray rest ih =>
    obtain ⟨e, w⟩ := ray
    intro thrs m r r' hi h
    rw [rayLoop] at h
    simp only at h
    split at h
    · exact ih _ _ r r' hi h
    · obtain ⟨rd, h1, h⟩ := Outcome.bind_eq_ok.mp h
      obtain ⟨⟨thrs1, r1⟩, h2, h⟩ := Outcome.bind_eq_ok.mp h
      exact ih _ _ r1 r' (before_requestLoop hreg o rd reqs hp 0 thrs thrs1 r r1 hi h2) h

theorem before_nil (env : Env K) : Before env ([] : Result K) :=
  ⟨inv_nil env, ⟨List.Pairwise.nil, fun _ h => by simp at h⟩, fun _ _ _ _ _ h => by cases h⟩

end order

/-! ## The lines that excite others -/

section keys

variable {K : Type} [Field K] [LinearOrder K] [IsStrictOrderedRing K]

theorem factorFirst_eq_gain (l : Leaf K) : factorFirst l = gain l := rfl

/-- The line is taken as a source. -/
def Takes (t : Str) (l : Leaf K) : Prop := hasEsc t = false ∧ 5 / 1000 ≤ l.massFraction ∧ 101 / 100 ≤ gain l

def keyName (ele : Str) (i : Nat) (t : Str) : Str := ele ++ ' ' :: (t ++ ' ' :: twoDigits i)

theorem keysLoop_sound (ele : Str) (i : Nat) : ∀ (ls : List (Str × Leaf K)) (ks : SMap Str K) (n : Str) (f : K),
    (keysLoop ele i ls ks).find? n = some f →
    ks.find? n = some f ∨ ∃ t l, (t, l) ∈ ls ∧ Takes t l ∧ n = keyName ele i t ∧ f = gain l
  | [], ks, n, f, h => Or.inl h
  | (t, l) :: rest, ks, n, f, h => by
    have lift : ∀ {ks' : SMap Str K}, (ks'.find? n = some f ∨ ∃ t l, (t, l) ∈ rest ∧ Takes t l ∧ n = keyName ele i t ∧ f = gain l) →
        ks'.find? n = some f ∨ ∃ t' l', (t', l') ∈ (t, l) :: rest ∧ Takes t' l' ∧ n = keyName ele i t' ∧ f = gain l' := by
      rintro ks' (hh | ⟨t', l', a, b⟩)
      · exact Or.inl hh
      · exact Or.inr ⟨t', l', List.mem_cons_of_mem _ a, b⟩
    rw [keysLoop] at h
    split at h
    · exact lift (keysLoop_sound ele i rest ks n f h)
    rename_i he
    split at h
    · exact Or.inl h
    rename_i hm
    split at h
    · exact lift (keysLoop_sound ele i rest ks n f h)
    rename_i hg
    rcases lift (keysLoop_sound ele i rest _ n f h) with hh | hh
    · rw [SMap.find?_insert] at hh
      split at hh
      · rename_i hn
        simp only [Option.some.injEq] at hh
        exact Or.inr ⟨t, l, List.mem_cons_self, ⟨by simpa using he, not_lt.mp hm, not_lt.mp hg⟩, hn.symm, hh.symm⟩
      · exact Or.inl hh
    · exact Or.inr hh

theorem keysLoop_mono (ele : Str) (i : Nat) : ∀ (ls : List (Str × Leaf K)) (ks : SMap Str K) (n : Str),
    ks.find? n ≠ none → (keysLoop ele i ls ks).find? n ≠ none
  | [], ks, n, h => h
  | (t, l) :: rest, ks, n, h => by
    rw [keysLoop]
    split
    · exact keysLoop_mono ele i rest ks n h
    split
    · exact h
    split
    · exact keysLoop_mono ele i rest ks n h
    refine keysLoop_mono ele i rest _ n ?_
    rw [SMap.find?_insert]
    split
    · simp
    · exact h

theorem keysLoop_complete (ele : Str) (i : Nat) : ∀ (ls : List (Str × Leaf K)) (ks : SMap Str K) (t : Str) (l : Leaf K),
    (t, l) ∈ ls → Takes t l → (∀ t' l', (t', l') ∈ ls → hasEsc t' = false → l'.massFraction = l.massFraction) →
    (keysLoop ele i ls ks).find? (keyName ele i t) ≠ none
  | (t0, l0) :: rest, ks, t, l, hm, ht, hall => by
    have hall' : ∀ t' l', (t', l') ∈ rest → hasEsc t' = false → l'.massFraction = l.massFraction :=
      fun t' l' hh => hall t' l' (List.mem_cons_of_mem _ hh)
    rw [keysLoop]
    rcases List.mem_cons.mp hm with heq | hm'
    · simp only [Prod.mk.injEq] at heq
      obtain ⟨rfl, rfl⟩ := heq
      rw [if_neg (by simp [ht.1]), if_neg (not_lt.mpr ht.2.1),
        if_neg (by rw [factorFirst_eq_gain]; exact not_lt.mpr ht.2.2)]
      refine keysLoop_mono ele i rest _ _ ?_
      rw [SMap.find?_insert, if_pos (show ele ++ ' ' :: (t ++ ' ' :: twoDigits i) = keyName ele i t from rfl)]
      simp
    · split
      · exact keysLoop_complete ele i rest ks t l hm' ht hall'
      rename_i he
      rw [if_neg (by rw [hall t0 l0 List.mem_cons_self (by simpa using he)]; exact not_lt.mpr ht.2.1)]
      split
      · exact keysLoop_complete ele i rest ks t l hm' ht hall'
      · exact keysLoop_complete ele i rest _ t l hm' ht hall'

theorem keysLoop_sorted (ele : Str) (i : Nat) : ∀ (ls : List (Str × Leaf K)) (ks : SMap Str K), ks.Sorted →
    (keysLoop ele i ls ks).Sorted
  | [], _, h => h
  | (t, l) :: rest, ks, h => by
    rw [keysLoop]
    split
    · exact keysLoop_sorted ele i rest ks h
    split
    · exact h
    split
    · exact keysLoop_sorted ele i rest ks h
    · exact keysLoop_sorted ele i rest _ (SMap.insert_sorted h _ _)

/-- The loops over the keys and the layers, as one list of cells. -/
def cellsOf (r : Result K) : List (Str × Nat × SMap Str (Leaf K)) :=
  r.flatMap (fun e => (fillLayers e.2).map (fun p => (e.1.toList.takeWhile (fun c => c ≠ ' '), p.1, p.2)))

def keysOf (cells : List (Str × Nat × SMap Str (Leaf K))) (ks : SMap Str K) : SMap Str K :=
  cells.foldl (fun ks p => keysLoop p.1 p.2.1 p.2.2 ks) ks

theorem tertiaryKeys_eq (r : Result K) : tertiaryKeys r = keysOf (cellsOf r) [] := by
  unfold tertiaryKeys keysOf cellsOf
  rw [List.foldl_map]
  generalize ([] : SMap Str K) = ks
  induction r generalizing ks with
  | nil => rfl
  | cons e r ih => 
    rw [List.foldl_cons, List.flatMap_cons, List.foldl_append, ih, List.foldl_map]

theorem keysOf_sound : ∀ (cells : List (Str × Nat × SMap Str (Leaf K))) (ks : SMap Str K) (n : Str) (f : K),
    (keysOf cells ks).find? n = some f → ks.find? n = some f ∨ ∃ p ∈ cells, ∃ t l, (t, l) ∈ p.2.2 ∧ Takes t l ∧
      n = keyName p.1 p.2.1 t ∧ f = gain l
  | [], ks, n, f, h => Or.inl h
  | p :: cells, ks, n, f, h => by
    rcases keysOf_sound cells _ n f h with h1 | ⟨q, hq, h1⟩
    · rcases keysLoop_sound p.1 p.2.1 p.2.2 ks n f h1 with h2 | h2
      · exact Or.inl h2
      · exact Or.inr ⟨p, List.mem_cons_self, h2⟩
    · exact Or.inr ⟨q, List.mem_cons_of_mem _ hq, h1⟩

theorem keysOf_mono : ∀ (cells : List (Str × Nat × SMap Str (Leaf K))) (ks : SMap Str K) (n : Str),
    ks.find? n ≠ none → (keysOf cells ks).find? n ≠ none
  | [], _, _, h => h
  | p :: cells, ks, n, h => keysOf_mono cells _ n (keysLoop_mono p.1 p.2.1 p.2.2 ks n h)

theorem keysOf_complete : ∀ (cells : List (Str × Nat × SMap Str (Leaf K))) (ks : SMap Str K) (p), p ∈ cells →
    ∀ t l, (t, l) ∈ p.2.2 → Takes t l →
    (∀ t' l', (t', l') ∈ p.2.2 → hasEsc t' = false → l'.massFraction = l.massFraction) →
    (keysOf cells ks).find? (keyName p.1 p.2.1 t) ≠ none
  | q :: cells, ks, p, hp, t, l, hm, ht, hall => by
    rcases List.mem_cons.mp hp with rfl | hp
    · exact keysOf_mono cells _ _ (keysLoop_complete p.1 p.2.1 p.2.2 ks t l hm ht hall)
    · exact keysOf_complete cells _ p hp t l hm ht hall

theorem keysOf_sorted : ∀ (cells : List (Str × Nat × SMap Str (Leaf K))) (ks : SMap Str K), ks.Sorted →
    (keysOf cells ks).Sorted
  | [], _, h => h
  | p :: cells, ks, h => keysOf_sorted cells _ (keysLoop_sorted p.1 p.2.1 p.2.2 ks h)

theorem fillLoop_sorted {V : Type} : ∀ (fuel i : Nat) (m : SMap Nat (SMap Str V)), SMap.Sorted m →
    SMap.Sorted (fillLoop fuel i m)
  | 0, _, _, h => h
  | fuel + 1, i, m, h => by
    rw [fillLoop]
    split
    · refine fillLoop_sorted fuel _ _ ?_
      split
      · exact h
      · exact SMap.insert_sorted h _ _
    · exact h

theorem mem_cellsOf {r : Result K} (h : Ordered r) {p : Str × Nat × SMap Str (Leaf K)} (hp : p ∈ cellsOf r) :
    ∃ k, p.1 = familyElement k ∧ p.2.2 = linesOf r k p.2.1 := by
  unfold cellsOf at hp
  rw [List.mem_flatMap] at hp
  obtain ⟨⟨k, m⟩, hk, hp⟩ := hp
  obtain ⟨⟨j, ls⟩, hj, rfl⟩ := List.mem_map.mp hp
  refine ⟨k, rfl, ?_⟩
  unfold linesOf
  rw [SMap.find?_of_mem h.1 hk]
  have h2 := fillLoop_getD (m.foldl (fun a e => max a e.1) 0 + 2) 0 m j
  change ((fillLayers m).find? j).getD [] = _ at h2
  simp only [Option.getD_some]
  have h3 : SMap.find? (fillLayers m) j = some ls := SMap.find?_of_mem (fillLoop_sorted _ _ _ (h.2 _ hk)) hj
  rw [← h2, h3]
  rfl

theorem cellsOf_mem {r : Result K} {k : String} {j : Nat} {u : Str} {l : Leaf K} (h : leaf? r k j u = some l) :
    (familyElement k, j, linesOf r k j) ∈ cellsOf r := by
  unfold cellsOf
  rw [List.mem_flatMap]
  cases hk : SMap.find? r k with
  | none => simp [leaf?, linesOf, hk] at h
  | some m =>
    refine ⟨(k, m), SMap.mem_of_find? hk, List.mem_map.mpr ⟨(j, linesOf r k j), ?_, rfl⟩⟩
    have h2 := fillLoop_getD (m.foldl (fun a e => max a e.1) 0 + 2) 0 m j
    change ((fillLayers m).find? j).getD [] = _ at h2
    have h3 : linesOf r k j = (m.find? j).getD [] := by unfold linesOf; rw [hk]; rfl
    rw [h3, ← h2]
    cases hj : (fillLayers m).find? j with
    | none =>
      exfalso
      rw [hj] at h2
      unfold leaf? at h
      rw [h3, ← h2] at h
      cases h
    | some ls => exact SMap.mem_of_find? hj

theorem keyName_eq (k : String) (j : Nat) (u : Str) :
    keyName (familyElement k) j u = sourceName (familyElement k ++ ' ' :: u) j := by
  rw [← twoDigits_eq]
  unfold keyName
  simp

/-- The sum over the sources is the one over the contributions. -/
theorem lineTertiary_eq {ks : SMap Str K} (hs : ks.Sorted) {l : Leaf K} (hl : l.contrib.Sorted) :
    lineTertiary ks l = excess (fun n => (ks.find? n).getD 1) l := by
  unfold lineTertiary excess
  have hnd := SMap.keys_nodup hs
  generalize l.contrib = cs at hl
  induction cs with
  | nil => simp
  | cons e cs ih =>
    obtain ⟨n, v⟩ := e
    have hs' := (SMap.sorted_cons (e := (n, v)) (m := cs)).mp hl
    rw [List.map_cons, List.sum_cons, ← ih hs'.2]
    have hone : (ks.map (fun e => if e.1 = n then v * (e.2 - 1) else 0)).sum = v * ((ks.find? n).getD 1 - 1) := by
      clear ih hl hs' hs
      induction ks with
      | nil => simp
      | cons a ks ih =>
        obtain ⟨m, w⟩ := a
        rw [List.map_cons, List.sum_cons, SMap.find?_cons]
        simp only [List.map_cons, List.nodup_cons] at hnd
        by_cases hmn : m = n
        · subst hmn
          have : (ks.map (fun e => if e.1 = m then v * (e.2 - 1) else 0)).sum = 0 := by
            apply List.sum_eq_zero
            intro x hx
            obtain ⟨y, hy, rfl⟩ := List.mem_map.mp hx
            rw [if_neg]
            rintro rfl
            exact hnd.1 (List.mem_map.mpr ⟨y, hy, rfl⟩)
          rw [this]
          simp
        · rw [ih hnd.2]
          simp [hmn]
    dsimp only
    rw [← hone, ← List.sum_map_add]
    congr 1
    refine List.map_congr_left fun a _ => ?_
    rw [SMap.find?_cons]
    by_cases ha : n = a.1
    · have : SMap.find? cs a.1 = none := by
        rw [SMap.find?_eq_none_iff]
        intro y hy he
        exact absurd (hs'.1 y hy) (by rw [he, ← ha]; exact lt_irrefl _)
      rw [this]
      simp [ha]
    · rw [if_neg ha, if_neg (fun h : a.1 = n => ha h.symm), zero_add]

theorem line_of_not_esc {env : Env K} (hn : EscapeNames env) {r : Result K} (h : Inv env r) {k : String} {i : Nat} {u : Str}
    {l : Leaf K} (hl : leaf? r k i u = some l) (he : hasEsc u = false) : Plain u := by
  rcases name_cases u with hu | ⟨t, m, ht, rfl⟩
  · exact hu
  exfalso
  cases hl' : leaf? r k i t with
  | none => rw [h.orphan k i t m ht hl'] at hl; cases hl
  | some l' =>
    obtain ⟨esc, hv⟩ := h.line k i t l' ht hl'
    rw [hv.peaks m] at hl
    cases hm : SMap.find? esc (String.ofList m) with
    | none => rw [hm] at hl; cases hl
    | some p =>
      have := hv.escapes
      unfold escapesOf at this
      split at this
      · have h2 := hn.escape _ _ this _ (SMap.mem_of_find? hm)
        simp only [String.toList_ofList] at h2
        rw [hasEsc_escName t m h2] at he
        cases he
      · simp only [Outcome.ok.injEq] at this
        subst this
        cases hm

theorem esc_of_line {env : Env K} (hn : EscapeNames env) {r : Result K} (h : Inv env r) {k : String} {i : Nat} {u : Str}
    {l : Leaf K} (hl : leaf? r k i u = some l) (hu : Plain u) : hasEsc u = false := by
  obtain ⟨el, e, w, fs, hx, htf⟩ := h.source k i u l hu hl
  exact hn.lines el e w fs hx u htf

theorem keys_sound {env : Env K} (hn : EscapeNames env) {r : Result K} (h : Before env r) (n : Str) (f : K)
    (hf : (tertiaryKeys r).find? n = some f) : Enhanced r n f := by
  rw [tertiaryKeys_eq] at hf
  rcases keysOf_sound _ _ _ _ hf with hh | ⟨p, hp, t, l, hm, ht, rfl, rfl⟩
  · cases hh
  obtain ⟨k, h1, h2⟩ := mem_cellsOf h.ordered hp
  have hl : leaf? r k p.2.1 t = some l := by
    unfold leaf?
    rw [← h2]
    rw [h2] at hm ⊢
    exact SMap.find?_of_mem (h.inv.sorted k _) hm
  exact ⟨k, p.2.1, t, l, hl, line_of_not_esc hn h.inv hl ht.1, by rw [h1, keyName_eq], ht.2.1, ht.2.2, rfl⟩

theorem keys_complete {env : Env K} (hn : EscapeNames env) {r : Result K} (h : Before env r) (n : Str) (f : K)
    (hf : Enhanced r n f) : (tertiaryKeys r).find? n ≠ none := by
  obtain ⟨k, j, u, l, hl, hu, rfl, h1, h2, rfl⟩ := hf
  rw [tertiaryKeys_eq, ← keyName_eq]
  refine keysOf_complete _ _ _ (cellsOf_mem hl) u l (SMap.mem_of_find? hl) ⟨esc_of_line hn h.inv hl hu, h1, h2⟩ ?_
  intro t' l' hm he
  have hl' : leaf? r k j t' = some l' := SMap.find?_of_mem (h.inv.sorted k j) hm
  obtain ⟨el, fam, layer, a1, a2, a3, a4⟩ := h.mass _ _ _ _ hu hl
  obtain ⟨el', fam', layer', b1, b2, b3, b4⟩ := h.mass _ _ _ _ (line_of_not_esc hn h.inv hl' he) hl'
  obtain ⟨rfl, -⟩ := key_inj a2 b2 (a1.symm.trans b1)
  rw [a3] at b3
  rw [a4, b4, Option.some.inj b3]

theorem gain_congr {l l' : Leaf K} (h1 : l'.primary = l.primary) (h2 : l'.secondary = l.secondary) : gain l' = gain l := by
  unfold gain
  rw [h1, h2]

theorem enhanced_tertiary {r : Result K} (hs : SortedLines r) (n : Str) (f : K) :
    Enhanced (tertiary r) n f ↔ Enhanced r n f := by
  constructor
  · rintro ⟨k, j, u, l, hl, h1, h2, h3, h4, h5⟩
    rcases tertiary_leaf hs k j u with ⟨-, b⟩ | ⟨l0, l', a, b, rate, ter, e⟩
    · rw [b] at hl; cases hl
    · rw [b] at hl
      cases Option.some.inj hl
      subst e
      exact ⟨k, j, u, l0, a, h1, h2, h3, h4, h5⟩
  · rintro ⟨k, j, u, l, hl, h1, h2, h3, h4, h5⟩
    rcases tertiary_leaf hs k j u with ⟨a, -⟩ | ⟨l0, l', a, b, rate, ter, e⟩
    · rw [a] at hl; cases hl
    · rw [a] at hl
      cases Option.some.inj hl
      subst e
      exact ⟨k, j, u, _, b, h1, h2, h3, h4, h5⟩

theorem tertiary_value {env : Env K} (hn : EscapeNames env) {r : Result K} (h : Before env r)
    (hag : ∀ n f f', Enhanced r n f → Enhanced r n f' → f = f') :
    ∃ F : Str → K, (∀ n f, Enhanced (tertiary r) n f → F n = f) ∧ (∀ n, (∀ f, ¬ Enhanced (tertiary r) n f) → F n = 1) ∧
      ∀ k i t l, Plain t → leaf? (tertiary r) k i t = some l →
        l.tertiary = if gain l < 101 / 100 then 0 else excess F l := by
  simp only [enhanced_tertiary h.inv.sorted]
  refine ⟨fun n => ((tertiaryKeys r).find? n).getD 1, ?_, ?_, ?_⟩
  · intro n f hf
    dsimp only
    cases hk : (tertiaryKeys r).find? n with
    | none => exact absurd hk (keys_complete hn h n f hf)
    | some f' => exact hag n _ _ (keys_sound hn h n f' hk) hf
  · intro n hf
    dsimp only
    cases hk : (tertiaryKeys r).find? n with
    | none => rfl
    | some f' => exact absurd (keys_sound hn h n f' hk) (hf f')
  · intro k i t l' ht hl'
    have hloop := tertiaryLoop_spec (tertiaryKeys r) (linesOf r k i) (linesOf r k i) (h.inv.sorted k i)
    cases hl : leaf? r k i t with
    | none =>
      rcases tertiary_leaf h.inv.sorted k i t with ⟨-, b⟩ | ⟨l0, l'', a, -⟩
      · rw [b] at hl'; cases hl'
      · rw [a] at hl; cases hl
    | some l =>
      obtain ⟨acc', h1, -⟩ := hloop.2 t l (SMap.mem_of_find? hl)
      have h2 : leaf? (tertiary r) k i t = some (tertiaryOf (tertiaryKeys r) acc' t l) := by
        unfold leaf?
        rw [linesOf_tertiary]
        exact h1
      rw [hl'] at h2
      cases Option.some.inj h2
      have hsort : SMap.Sorted (tertiaryKeys r) := by
        rw [tertiaryKeys_eq]
        exact keysOf_sorted _ _ List.Pairwise.nil
      obtain ⟨esc, hv⟩ := h.inv.line k i t l ht hl
      unfold tertiaryOf
      rw [esc_of_line hn h.inv hl ht]
      by_cases hg : gain l < 101 / 100
      · rw [if_pos (by rw [factorFirst_eq_gain]; exact hg)]
        have : gain { l with tertiary := 0 } < 101 / 100 := hg
        rw [if_pos this]
      · rw [if_neg (by rw [factorFirst_eq_gain]; exact hg)]
        dsimp only
        rw [if_neg (by simp), lineTertiary_eq hsort hv.sorted, if_neg]
        · rfl
        · exact hg

end keys

/-! ## The factor of a source does not depend on the request it was calculated for -/

section agree

variable {R : Type} {pf : String → Outcome (SMap String ℝ)} {fuel : Nat} {L : Library ℝ}
  {srt : List (String × ℝ) → List (String × ℝ)} {c : Config ℝ R} {o : Options ℝ} {g : Bool}

theorem twoDigits_inj {i j : Nat} (h : twoDigits i = twoDigits j) : i = j := by
  have hv : ∀ n, Nat.ofDigitChars 10 (twoDigits n) 0 = n := by
    intro n
    unfold twoDigits
    dsimp only
    rw [Nat.toList_repr]
    split
    · rw [Nat.ofDigitChars_cons]
      simp
    · exact Nat.ofDigitChars_toDigits (by norm_num) (by norm_num)
  rw [← hv i, h, hv j]

theorem plain_familyElement (k : String) : Plain (familyElement k) := by
  intro h
  have := List.mem_takeWhile_imp h
  simp at this

theorem sourceName_inj {k k' : String} {u u' : Str} {j j' : Nat} (hu : Plain u) (hu' : Plain u')
    (h : sourceName (familyElement k ++ ' ' :: u) j = sourceName (familyElement k' ++ ' ' :: u') j') :
    familyElement k = familyElement k' ∧ u = u' ∧ j = j' := by
  rw [← keyName_eq, ← keyName_eq] at h
  obtain ⟨h1, h2⟩ := escName_inj (plain_familyElement k) (plain_familyElement k') (m := u ++ ' ' :: twoDigits j)
    (n := u' ++ ' ' :: twoDigits j') h
  obtain ⟨h3, h4⟩ := escName_inj hu hu' (m := twoDigits j) (n := twoDigits j') h2
  exact ⟨h1, h3, twoDigits_inj h4⟩

theorem familyElement_key {el fam : String} (h : Plain el.toList) : familyElement (el ++ " " ++ fam) = el.toList := by
  unfold familyElement
  have : (el ++ " " ++ fam).toList = escName el.toList fam.toList := by
    unfold escName
    simp
  rw [this]
  exact takeWhile_escName _ _ h

/-- A family contains only lines with its own first letter. -/
theorem family_letter {f : String} {t : Str} (hf : f ≠ "") (h : inFamily f t = true) :
    (actualFamily f).toList.take 1 = t.take 1 := by
  unfold inFamily at h
  rw [Bool.or_eq_true] at h
  rcases h with h | h
  · rw [Shell.startsWith_iff] at h
    obtain ⟨r, rfl⟩ := h
    have hne : (actualFamily f).toList ≠ [] := by
      unfold actualFamily
      split
      · decide
      split
      · decide
      · intro h0
        exact hf (String.toList_eq_nil_iff.mp h0)
    cases hx : (actualFamily f).toList with
    | nil => exact absurd hx hne
    | cons a b => simp
  · simp only [Bool.and_eq_true, beq_iff_eq] at h
    obtain ⟨⟨rfl, h1⟩, -⟩ := h
    have h2 : (actualFamily "Kb").toList.take 1 = ['K'] := by decide
    rw [h2]
    cases t with
    | nil => simp at h1
    | cons a b =>
      simp only [List.getD_cons_zero] at h1
      subst h1
      simp

/-- The request asks for the line. -/
def Matches (k : String) (i : Nat) (t : Str) (req : Request) : Prop :=
  req.element ++ " " ++ req.family = k ∧ (req.layer < 0 ∨ req.layer = (i : Int)) ∧ inFamily req.family t = true ∧
    req.family ≠ ""

theorem asked_iff {req : Request} {k : String} {i : Nat} {t : Str} {e : ℝ} (h : Matches k i t req) :
    Asked L req k i t e ↔
      ∃ thr, Xrf.getEnergyThreshold L req.element (String.ofList (t.take 1)) = .ok thr ∧ thr ≤ e := by
  obtain ⟨h1, h2, h3, h4⟩ := h
  unfold Asked
  rw [family_letter h4 h3]
  exact ⟨fun hh => hh.2.2.2.2, fun hh => ⟨h1, h2, h3, h4, hh⟩⟩

theorem not_asked {req : Request} {k : String} {i : Nat} {t : Str} {e : ℝ} (h : ¬ Matches k i t req) :
    ¬ Asked L req k i t e := fun hh => h ⟨hh.1, hh.2.1, hh.2.2.1, hh.2.2.2.1⟩

theorem primaryTerm_not {k : String} {i : Nat} {t : Str} {ray : ℝ × ℝ} {req : Request} (h : ¬ Matches k i t req) :
    primaryTerm pf fuel L c o k i t ray req = 0 := by
  unfold primaryTerm
  split
  · rfl
  · exact if_neg (fun hh => not_asked h hh.1)

theorem secondaryTerm_not {k : String} {i : Nat} {t : Str} {P : Str → Prop} {ray : ℝ × ℝ} {req : Request}
    (h : ¬ Matches k i t req) : secondaryTerm pf fuel L srt c o k i t P ray req = 0 := by
  unfold secondaryTerm
  split
  · rfl
  · exact if_neg (fun hh => not_asked h hh.1)

theorem primaryTerm_same {k k' : String} {i : Nat} {t : Str} {ray : ℝ × ℝ} {req req' : Request} (h : Matches k i t req)
    (h' : Matches k' i t req') (he : req.element = req'.element) :
    primaryTerm pf fuel L c o k i t ray req = primaryTerm pf fuel L c o k' i t ray req' := by
  have hA : Asked L req k i t ray.1 = Asked L req' k' i t ray.1 := propext (by rw [asked_iff h, asked_iff h', he])
  unfold primaryTerm
  rw [he, hA]

theorem secondaryTerm_same {k k' : String} {i : Nat} {t : Str} {P : Str → Prop} {ray : ℝ × ℝ} {req req' : Request}
    (h : Matches k i t req) (h' : Matches k' i t req') (he : req.element = req'.element) :
    secondaryTerm pf fuel L srt c o k i t P ray req = secondaryTerm pf fuel L srt c o k' i t P ray req' := by
  have hA : Asked L req k i t ray.1 = Asked L req' k' i t ray.1 := propext (by rw [asked_iff h, asked_iff h', he])
  unfold secondaryTerm
  rw [he, hA, family_letter h.2.2.2 h.2.2.1, family_letter h'.2.2.2 h'.2.2.1]

theorem sum_indicator {ι : Type} (M : ι → Prop) [DecidablePred M] (f : ι → ℝ) (A : ℝ) : ∀ l : List ι,
    (∀ q ∈ l, M q → f q = A) → (∀ q ∈ l, ¬ M q → f q = 0) →
    (l.map f).sum = ((l.filter (fun q => decide (M q))).length : ℝ) * A
  | [], _, _ => by simp
  | q :: l, h1, h2 => by
    rw [List.map_cons, List.sum_cons, sum_indicator M f A l (fun q hq => h1 q (List.mem_cons_of_mem _ hq))
      (fun q hq => h2 q (List.mem_cons_of_mem _ hq)), List.filter_cons]
    by_cases hm : M q
    · rw [h1 q List.mem_cons_self hm]
      simp only [hm, decide_true, if_true, List.length_cons]
      push_cast
      ring
    · rw [h2 q List.mem_cons_self hm]
      simp [hm]

open Classical in
/-- Primary and secondary excitation are those of one request times the number of requests. -/
theorem line_multiple (hL : SoundLibrary pf fuel L) (reqs : List Request) (hp : ∀ q ∈ reqs, ' ' ∉ q.element.toList)
    (b : Beam ℝ) (r : Result ℝ) (h : fluorescence pf fuel L srt c o g b (reqs.map .ok) = .ok r) (k0 : String) (i : Nat)
    (t : Str) (ht : ' ' ∉ t) (q0 : Request) (hq : q0 ∈ reqs) (hm : Matches k0 i t q0) :
    ∃ P S : ℝ, ∀ k l, leaf? r k i t = some l → familyElement k = familyElement k0 → ∃ N : ℝ,
      l.primary = N * P ∧ l.secondary = N * S := by
  refine ⟨((usedBeam c b).map (fun ray => primaryTerm pf fuel L c o k0 i t (behind pf fuel L c ray) q0)).sum,
    ((usedBeam c b).map (fun ray => secondaryTerm pf fuel L srt c o k0 i t (fun _ => True)
      (behind pf fuel L c ray) q0)).sum, ?_⟩
  intro k l hl hk
  refine ⟨((reqs.filter (fun q => decide (Matches k i t q))).length : ℝ), ?_, ?_⟩
  · have h1 := C71_primary pf fuel L srt c o g hL reqs hp b r h k i t ht
    rw [hl] at h1
    simp only [Option.map_some, Option.getD_some] at h1
    rw [h1, ← List.sum_map_mul_left]
    congr 1
    refine List.map_congr_left fun ray _ => ?_
    refine sum_indicator (Matches k i t) _ _ reqs ?_ (fun q _ hn => primaryTerm_not hn)
    intro q hqr hqm
    refine primaryTerm_same hqm hm ?_
    have e1 := familyElement_key (fam := q.family) (hp q hqr)
    have e2 := familyElement_key (fam := q0.family) (hp q0 hq)
    rw [hqm.1] at e1
    rw [hm.1] at e2
    exact String.toList_injective (by rw [← e1, ← e2, hk])
  · have h1 := C84_secondary pf fuel L srt c o g hL reqs hp b r h k i t ht
    rw [hl] at h1
    simp only [Option.map_some, Option.getD_some] at h1
    rw [h1, ← List.sum_map_mul_left]
    congr 1
    refine List.map_congr_left fun ray _ => ?_
    refine sum_indicator (Matches k i t) _ _ reqs ?_ (fun q _ hn => secondaryTerm_not hn)
    intro q hqr hqm
    refine secondaryTerm_same hqm hm ?_
    have e1 := familyElement_key (fam := q.family) (hp q hqr)
    have e2 := familyElement_key (fam := q0.family) (hp q0 hq)
    rw [hqm.1] at e1
    rw [hm.1] at e2
    exact String.toList_injective (by rw [← e1, ← e2, hk])

/-- A line that is stronger because of the secondary excitation has primary excitation, hence was asked for. -/
theorem exists_matching (hL : SoundLibrary pf fuel L) (reqs : List Request) (hp : ∀ q ∈ reqs, ' ' ∉ q.element.toList)
    (b : Beam ℝ) (r : Result ℝ) (h : fluorescence pf fuel L srt c o g b (reqs.map .ok) = .ok r) (k : String) (i : Nat)
    (t : Str) (ht : ' ' ∉ t) (l : Leaf ℝ) (hl : leaf? r k i t = some l) (hg : 101 / 100 ≤ gain l) :
    0 < l.primary ∧ ∃ q ∈ reqs, Matches k i t q := by
  have hpos : 0 < l.primary := by
    by_contra hn
    unfold gain at hg
    rw [if_neg hn] at hg
    norm_num at hg
  refine ⟨hpos, ?_⟩
  by_contra hn
  push Not at hn
  have h1 := C71_primary pf fuel L srt c o g hL reqs hp b r h k i t ht
  rw [hl] at h1
  simp only [Option.map_some, Option.getD_some] at h1
  rw [h1] at hpos
  refine absurd hpos (not_lt.mpr (le_of_eq ?_))
  apply List.sum_eq_zero
  intro x hx
  obtain ⟨ray, -, rfl⟩ := List.mem_map.mp hx
  apply List.sum_eq_zero
  intro y hy
  obtain ⟨q, hq, rfl⟩ := List.mem_map.mp hy
  exact primaryTerm_not (hn q hq)

theorem gain_multiple {l : Leaf ℝ} {P S N : ℝ} (h0 : 0 < l.primary) (h1 : l.primary = N * P) (h2 : l.secondary = N * S) :
    gain l = (P + S) / P := by
  unfold gain
  rw [if_pos h0, h1, h2]
  rw [h1] at h0
  have hN : N ≠ 0 := fun h => by rw [h, zero_mul] at h0; exact lt_irrefl _ h0
  have hP : P ≠ 0 := fun h => by rw [h, mul_zero] at h0; exact lt_irrefl _ h0
  field_simp

theorem enhanced_unique (hL : SoundLibrary pf fuel L) (reqs : List Request) (hp : ∀ q ∈ reqs, ' ' ∉ q.element.toList)
    (b : Beam ℝ) (r : Result ℝ) (h : fluorescence pf fuel L srt c o g b (reqs.map .ok) = .ok r) (n : Str) (f f' : ℝ)
    (h1 : Enhanced r n f) (h2 : Enhanced r n f') : f = f' := by
  obtain ⟨k, j, u, l, a1, a2, rfl, a3, a4, rfl⟩ := h1
  obtain ⟨k', j', u', l', b1, b2, b3, b4, b5, rfl⟩ := h2
  obtain ⟨c1, rfl, rfl⟩ := sourceName_inj a2 b2 b3
  obtain ⟨p1, q, hq, hm⟩ := exists_matching hL reqs hp b r h k j u a2 l a1 a4
  obtain ⟨p2, -⟩ := exists_matching hL reqs hp b r h k' j u a2 l' b1 b5
  obtain ⟨P, S, hPS⟩ := line_multiple hL reqs hp b r h k j u a2 q hq hm
  obtain ⟨N, d1, d2⟩ := hPS k l a1 rfl
  obtain ⟨N', d3, d4⟩ := hPS k' l' b1 c1.symm
  rw [gain_multiple p1 d1 d2, gain_multiple p2 d3 d4]

end agree

/-! ## The properties of the call -/

section api

variable {R : Type} (pf : String → Outcome (SMap String ℝ)) (fuel : Nat) (L : Library ℝ)
  (srt : List (String × ℝ) → List (String × ℝ)) (c : Config ℝ R) (o : Options ℝ) (g : Bool)

theorem calculate_before {env : Env ℝ} (hreg : Regular env) (o : Options ℝ) (reqs : List Request)
    (hp : ∀ req ∈ reqs, Plain req.element.toList) (rays : List (ℝ × ℝ)) (r : Result ℝ)
    (h : calculate env o (reqs.map .ok) rays = .ok r) :
    ∃ r0, Before env r0 ∧ r = if o.secondary > 1 then tertiary r0 else r0 := by
  unfold calculate at h
  obtain ⟨r0, h1, h⟩ := Outcome.bind_eq_ok.mp h
  simp only [Outcome.pure_eq, Outcome.ok.injEq] at h
  exact ⟨r0, before_rayLoop hreg o reqs hp _ _ _ _ _ (before_nil env) h1, h.symm⟩

section deeper

variable (env : Env ℝ) {o o' : Options ℝ}

/-- The options differ at most in asking for the tertiary excitation. -/
def Deeper (o o' : Options ℝ) : Prop :=
  o'.useMassFractions = o.useMassFractions ∧ o'.limit = o.limit ∧ 0 < o.secondary ∧ 0 < o'.secondary

theorem familyLines_deeper (h : Deeper o o') (m f w lw : ℝ) (ele fam : Str) : ∀ fs : List (Str × Factor ℝ),
    familyLines o' m f w lw ele fam fs = familyLines o m f w lw ele fam fs
  | [] => rfl
  | (t, x) :: fs => by
    unfold familyLines
    rw [familyLines_deeper h m f w lw ele fam fs, h.2.1]

theorem familiesLoop_deeper (h : Deeper o o') (m e w lw : ℝ) (comp : SMap String ℝ) : ∀ fs : List (String × ℝ),
    familiesLoop env o' m e w lw comp fs = familiesLoop env o m e w lw comp fs
  | [] => rfl
  | x :: fs => by
    unfold familiesLoop
    simp only [familiesLoop_deeper h m e w lw comp fs, familyLines_deeper h]

theorem emissionsLoop_deeper (h : Deeper o o') (m e w : ℝ) : ∀ (ls : List (LayerData ℝ)) (i : Nat) (inc : List (ℝ × ℝ)),
    emissionsLoop env o' m e w i ls inc = emissionsLoop env o m e w i ls inc
  | [], _, _ => by unfold emissionsLoop; rfl
  | l :: ls, i, [] => by unfold emissionsLoop; rfl
  | l :: ls, i, p :: inc => by
    unfold emissionsLoop
    simp only [emissionsLoop_deeper h m e w ls, layerEmissions, familiesLoop_deeper env h]

theorem rayData_deeper (h : Deeper o o') (m e w : ℝ) : rayData env o' m e w = rayData env o m e w := by
  unfold rayData
  simp only [emissionsLoop_deeper env h, h.2.2.1, h.2.2.2]

theorem cell_deeper (h : Deeper o o') (rd : RayData ℝ) (req : Request) (thr : ℝ) (fs : SMap Str (Factor ℝ)) (i : Nat)
    (l : LayerData ℝ) (r : Result ℝ) : cell env o' rd req thr fs i l r = cell env o rd req thr fs i l r := by
  unfold cell
  simp only [h.1, h.2.2.1, h.2.2.2]

theorem cellLoop_deeper (h : Deeper o o') (rd : RayData ℝ) (req : Request) (thr : ℝ) (fs : SMap Str (Factor ℝ)) :
    ∀ (ls : List (LayerData ℝ)) (i : Nat) (r : Result ℝ),
      cellLoop env o' rd req thr fs i ls r = cellLoop env o rd req thr fs i ls r
  | [], _, _ => rfl
  | l :: ls, i, r => by
    unfold cellLoop
    simp only [cellLoop_deeper h rd req thr fs ls, cell_deeper env h]

theorem requestLoop_deeper (h : Deeper o o') (rd : RayData ℝ) : ∀ (reqs : List (Outcome Request)) (n : Nat) (thrs : List ℝ)
    (r : Result ℝ), requestLoop env o' rd n reqs thrs r = requestLoop env o rd n reqs thrs r
  | [], _, _, _ => rfl
  | q :: reqs, n, thrs, r => by
    unfold requestLoop
    simp only [requestLoop_deeper h rd reqs, cellLoop_deeper env h]

theorem rayLoop_deeper (h : Deeper o o') (reqs : List (Outcome Request)) : ∀ (rays : List (ℝ × ℝ)) (thrs : List ℝ) (m : ℝ)
    (r : Result ℝ), rayLoop env o' reqs rays thrs m r = rayLoop env o reqs rays thrs m r
  | [], _, _, _ => rfl
  | (e, w) :: rays, thrs, m, r => by
    unfold rayLoop
    simp only [rayLoop_deeper h reqs rays, requestLoop_deeper env h, rayData_deeper env h]

end deeper

/-- **C85** The tertiary excitation of a line is nothing when the secondary excitation adds less than 1 %, and otherwise
the sum over its sources of what they contribute times the excess of the source over its primary excitation. The excess
of a source that is not returned, is returned for a layer with less than 0.5 % of its element or with less than 1 % of
secondary excitation is left out. -/
theorem C85_tertiary (hL : SoundLibrary pf fuel L) (ht : 0 ≤ c.detector.intensityThreshold) (reqs : List Request)
    (hp : ∀ q ∈ reqs, ' ' ∉ q.element.toList) (b : Beam ℝ) (r : Result ℝ)
    (h : fluorescence pf fuel L srt c o g b (reqs.map .ok) = .ok r) (ho : 1 < o.secondary) :
    ∃ F : Str → ℝ, (∀ n f, Enhanced r n f → F n = f) ∧ (∀ n, (∀ f, ¬ Enhanced r n f) → F n = 1) ∧
      ∀ k i t l, ' ' ∉ t → leaf? r k i t = some l →
        l.tertiary = if gain l < 101 / 100 then 0 else excess F l := by
  obtain ⟨env, mix, h1, -, -, h2, -, -, -, h3⟩ := fluorescence_env (c := c) srt hL g
  obtain ⟨r0, hb, rfl⟩ := calculate_before h1 o reqs hp _ r (h3 o b _ r h)
  rw [if_pos ho] at h ⊢
  refine tertiary_value (h2 ht) hb ?_
  intro n f f' e1 e2
  exact enhanced_unique hL reqs hp b _ h n f f' ((enhanced_tertiary hb.inv.sorted n f).mpr e1)
    ((enhanced_tertiary hb.inv.sorted n f').mpr e2)

/-- **C85** No tertiary excitation when it was not asked for. -/
theorem C85_none (hL : SoundLibrary pf fuel L) (reqs : List Request) (hp : ∀ q ∈ reqs, ' ' ∉ q.element.toList)
    (b : Beam ℝ) (r : Result ℝ) (h : fluorescence pf fuel L srt c o g b (reqs.map .ok) = .ok r) (ho : o.secondary ≤ 1)
    (k : String) (i : Nat) (t : Str) (l : Leaf ℝ) (ht : ' ' ∉ t) (hl : leaf? r k i t = some l) : l.tertiary = 0 := by
  obtain ⟨env, mix, h1, -, -, h2, -, -, -, h3⟩ := fluorescence_env (c := c) srt hL g
  obtain ⟨r0, hb, rfl⟩ := calculate_before h1 o reqs hp _ r (h3 o b _ r h)
  rw [if_neg (not_lt.mpr ho)] at hl
  obtain ⟨esc, hv⟩ := hb.inv.line k i t l ht hl
  exact hv.tertiary

/-- **C85** Asking for the tertiary excitation (2 instead of 1) changes nothing of a line but the tertiary excitation and
the rate, which becomes larger in the same proportion as the total excitation. -/
theorem C85_only_adds (hL : SoundLibrary pf fuel L) (ht : 0 ≤ c.detector.intensityThreshold) (reqs : List Request)
    (hp : ∀ q ∈ reqs, ' ' ∉ q.element.toList) (b : Beam ℝ) (r r' : Result ℝ)
    (h : fluorescence pf fuel L srt c { o with secondary := 1 } g b (reqs.map .ok) = .ok r)
    (h' : fluorescence pf fuel L srt c { o with secondary := 2 } g b (reqs.map .ok) = .ok r') (k : String) (i : Nat)
    (t : Str) :
    (leaf? r k i t = none ∧ leaf? r' k i t = none) ∨
    ∃ l l', leaf? r k i t = some l ∧ leaf? r' k i t = some l' ∧
      l' = { l with tertiary := l'.tertiary, rate := l'.rate } ∧
      (' ' ∉ t → l'.rate * (l.primary + l.secondary) = l.rate * (l.primary + l.secondary + l'.tertiary)) := by
  obtain ⟨comps, geoms, h1, h2, h3⟩ := fluorescence_ok h
  obtain ⟨comps', geoms', h1', h2', h3'⟩ := fluorescence_ok h'
  rw [h1] at h1'
  rw [h2] at h2'
  simp only [Outcome.ok.injEq] at h1' h2'
  subst h1' h2'
  have hreg := env_regular (srt := srt) (c := c) (comps := comps) (geoms := geoms) hL
  have hfin := calculate_final _ hreg _ (fun _ => env_names hL ht) _ _ _ h3'
  unfold calculate at h3 h3'
  obtain ⟨r0, e1, h3⟩ := Outcome.bind_eq_ok.mp h3
  obtain ⟨r1, e2, h3'⟩ := Outcome.bind_eq_ok.mp h3'
  simp only [Outcome.pure_eq, Outcome.ok.injEq] at h3 h3'
  rw [if_neg (by simp)] at h3
  rw [if_pos (by simp)] at h3'
  rw [rayLoop_deeper (o := { o with secondary := 1 }) (o' := { o with secondary := 2 }) _ ⟨rfl, rfl, by simp, by simp⟩, e1] at e2
  simp only [Outcome.ok.injEq] at e2
  subst h3 e2 h3'
  have hb := before_rayLoop hreg _ reqs hp _ _ _ _ _ (before_nil _) e1
  rcases tertiary_leaf hb.inv.sorted k i t with hn | ⟨l, l', a1, a2, rate, ter, a3⟩
  · exact Or.inl hn
  refine Or.inr ⟨l, l', a1, a2, by rw [a3], fun htp => ?_⟩
  obtain ⟨esc, hv⟩ := hb.inv.line k i t l htp a1
  obtain ⟨esc', hf⟩ := hfin.line k i t l' htp a2
  have he := hv.escapes
  have hs : l'.primary = l.primary ∧ l'.secondary = l.secondary ∧ l'.energy = l.energy ∧ l'.efficiency = l.efficiency := by
    rw [a3]; exact ⟨rfl, rfl, rfl, rfl⟩
  have he' := hf.escapes
  rw [hs.2.2.1, he] at he'
  simp only [Outcome.ok.injEq] at he'
  subst he'
  rw [hv.rate, hf.rate, hs.1, hs.2.1, hs.2.2.2]
  ring

/-- **C85** The mass fraction returned with a line is the one of its element in the layer. -/
theorem C85_mass_fraction (hL : SoundLibrary pf fuel L) (reqs : List Request)
    (hp : ∀ q ∈ reqs, ' ' ∉ q.element.toList) (b : Beam ℝ) (r : Result ℝ)
    (h : fluorescence pf fuel L srt c o g b (reqs.map .ok) = .ok r) (k : String) (i : Nat) (t : Str) (l : Leaf ℝ)
    (ht : ' ' ∉ t) (hl : leaf? r k i t = some l) :
    l.massFraction = ((sampleComposition pf fuel L c i).find? (String.ofList (familyElement k))).getD 0 := by
  obtain ⟨comps, geoms, h1, h2, h3⟩ := fluorescence_ok h
  obtain ⟨r0, hb, rfl⟩ := calculate_before (env_regular hL) o reqs hp _ r h3
  have hl0 : ∃ l0, leaf? r0 k i t = some l0 ∧ l0.massFraction = l.massFraction := by
    split at hl
    · rcases tertiary_leaf hb.inv.sorted k i t with ⟨-, b⟩ | ⟨l0, l', a, b, rate, ter, e⟩
      · rw [b] at hl; cases hl
      · rw [b] at hl
        cases Option.some.inj hl
        exact ⟨l0, a, by rw [e]⟩
    · exact ⟨l, hl, rfl⟩
  obtain ⟨l0, a, e⟩ := hl0
  obtain ⟨el, fam, layer, b1, b2, b3, b4⟩ := hb.mass k i t l0 ht a
  obtain ⟨l2, q, c1, c2, -, -⟩ := layers_get_inv h1 h2 i layer b3
  rw [← e, b4, sampleComposition_eq c1 c2, b1, familyElement_key b2, String.ofList_toList]

end api

/-! ## Examples -/

/-- Chromium in a steel: iron excites it, and iron itself is stronger because of nickel. -/
def exLeaf (p s : ℚ) (cs : SMap Str ℚ) : Leaf ℚ :=
  { (Leaf.zero : Leaf ℚ) with primary := p, secondary := s, rate := p + s, massFraction := 1 / 5, contrib := cs }

def exSteel : Result ℚ :=
  [("Cr K", [(0, [("KL3".toList, exLeaf 10 5 [("Fe KL3 00".toList, 4), ("Ni KL3 00".toList, 1)])])]),
   ("Fe K", [(0, [("KL3".toList, exLeaf 10 2 [("Ni KL3 00".toList, 2)])])]),
   ("Ni K", [(0, [("KL3".toList, exLeaf 10 0 [])])])]

/-- Iron is stronger by 20 %, so the tertiary excitation of chromium is 20 % of what iron contributes. -/
example : (leaf? (tertiary exSteel) "Cr K" 0 "KL3".toList).map (fun l => (l.tertiary, l.rate)) = some (4 / 5, 79 / 5) := by
  decide +kernel

example : Enhanced exSteel "Fe KL3 00".toList (6 / 5) :=
  ⟨"Fe K", 0, "KL3".toList, exLeaf 10 2 [("Ni KL3 00".toList, 2)], by decide +kernel, by decide, by decide +kernel,
    by norm_num [exLeaf], by norm_num [exLeaf, gain], by norm_num [exLeaf, gain]⟩

/-- The hypotheses of C85 hold for the iron sample. -/
example (fuel : Nat) (srt : List (String × ℝ) → List (String × ℝ)) (hs : Library.SortsByEnergy srt) (limit : ℝ) :
    ∃ r, fluorescence feParser (fuel + 1) feLibrary srt feConfig ⟨2, true, limit⟩ true Beam.new
      ([(⟨"Fe", "K", 0⟩ : Request)].map .ok) = .ok r ∧ (leaf? r "Fe K" 0 "KL3".toList).isSome ∧
      SoundLibrary feParser (fuel + 1) feLibrary ∧ 0 ≤ feConfig.detector.intensityThreshold := by
  obtain ⟨r, h1, h2, h3, -⟩ := fe_result_secondary fuel srt hs limit 2 (by norm_num)
  exact ⟨r, h1, h2, h3, by norm_num [feConfig, Config.new, Config.defaultDetector, Detector.new]⟩

end Multilayer
end Fisx
